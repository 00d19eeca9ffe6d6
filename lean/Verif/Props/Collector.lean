import Verif.Props.DataSet

/-!
# C79: collected poses and images stay paired
-/

namespace RCT

open Spec

variable {Img : Type}

theorem Collector.run_append (s : Collector Img) (a b : List (CollectEvent Img)) :
    s.run (a ++ b) = (s.run a).bind fun r => (r.1.run b).bind fun r' => .ok (r'.1, r.2 ++ r'.2) := by
  induction a generalizing s with
  | nil =>
    simp only [List.nil_append, Collector.run, Res.ok_bind, List.nil_append]
    cases s.run b <;> rfl
  | cons e es ih =>
    simp only [List.cons_append, Collector.run, ih]
    cases s.step e with
    | ok r =>
      simp only [Res.ok_bind]
      cases r.1.run es with
      | ok r' =>
        simp only [Res.ok_bind]
        cases r'.1.run b with
        | ok r'' => simp [List.append_assoc]
        | throw e => rfl
        | abort => rfl
        | ub => rfl
      | throw e => rfl
      | abort => rfl
      | ub => rfl
    | throw e => rfl
    | abort => rfl
    | ub => rfl

theorem latest_snoc (es : List (CollectEvent Img)) (e : CollectEvent Img) :
    latest (es ++ [e]) = match imageOf e with
      | some m => some m
      | none => latest es := by
  unfold latest
  rw [List.filterMap_append]
  cases h : imageOf e with
  | none => simp [h]
  | some m => simp [h]

theorem captures_snoc (es : List (CollectEvent Img)) (e : CollectEvent Img) :
    captures (es ++ [e]) = captures es ++
      (match triggerOf e, latest es with
      | some p, some m => [(p, m)]
      | _, _ => []) := by
  unfold captures
  rw [List.length_append, List.length_singleton, List.range_succ, List.filterMap_append]
  congr 1
  · apply List.filterMap_congr
    intro i hi
    have hi' := List.mem_range.1 hi
    rw [List.getElem?_append_left hi', List.take_append_of_le_length (by omega)]
  · rw [List.filterMap_cons]
    simp only [List.getElem?_concat_length, Option.bind_some, List.take_left, List.filterMap_nil]
    cases triggerOf e <;> cases latest es <;> rfl

theorem savedSets_snoc (es : List (CollectEvent Img)) (e : CollectEvent Img) :
    savedSets (es ++ [e]) = savedSets es ++ (if isSave e then [dataOf (captures es)] else []) := by
  unfold savedSets
  rw [List.length_append, List.length_singleton, List.range_succ, List.filter_append, List.map_append]
  congr 1
  · have h1 : (List.range es.length).filter (fun (i : Nat) => (((es ++ [e])[i]?).map isSave).getD false) =
        (List.range es.length).filter (fun (i : Nat) => ((es[i]?).map isSave).getD false) := by
      apply List.filter_congr
      intro i hi
      rw [List.getElem?_append_left (List.mem_range.1 hi)]
    rw [h1]
    apply List.map_congr_left
    intro i hi
    have hi' := List.mem_range.1 (List.mem_of_mem_filter hi)
    rw [List.take_append_of_le_length (by omega)]
  · cases h : isSave e <;> simp [h]

theorem Collector.data_eq (s : Collector Img) (l : List (TfMsg × Img)) (hp : s.poses = l.map Prod.fst)
    (hi : s.images = l.map Prod.snd) : s.data = .ok (dataOf l) := by
  unfold Collector.data
  have key : ∀ k, k ≤ l.length →
      Res.foldList (fun (d : DataSet Img) i =>
        (Res.idxList s.images i).bind fun image => (Res.idxList s.poses i).bind fun msg =>
        .ok ⟨d.images ++ [image], d.poses ++ [transformToEigen msg]⟩) {} (List.range k) = .ok (dataOf (l.take k)) := by
    intro k
    induction k with
    | zero => intro _; rfl
    | succ k ih =>
      intro hk
      have hl : l[k]? = some l[k] := by simp
      rw [List.range_succ, Res.foldList_append, ih (by omega), Res.ok_bind, Res.foldList_cons]
      have e1 : Res.idxList s.images k = .ok l[k].2 := by
        unfold Res.idxList
        rw [hi, List.getElem?_map, hl]; rfl
      have e2 : Res.idxList s.poses k = .ok l[k].1 := by
        unfold Res.idxList
        rw [hp, List.getElem?_map, hl]; rfl
      rw [e1, e2]
      simp only [Res.ok_bind, Res.foldList_nil]
      rw [List.take_add_one, hl]
      unfold dataOf
      rw [List.map_append, List.map_append]
      rfl
  have hlen : s.poses.length = l.length := by rw [hp, List.length_map]
  rw [hlen, key _ (Nat.le_refl _), List.take_length]

/-- For every history of images, triggers and saves: the node holds exactly the captures, that is the pose of every
successful trigger paired with the most recent image before it, in order; and every save stores the captures made before
it. -/
theorem C79_paired (es : List (CollectEvent Img)) (s : Collector Img) (saved : List (DataSet Img))
    (h : ({} : Collector Img).run es = .ok (s, saved)) :
    s.poses = (captures es).map Prod.fst ∧ s.images = (captures es).map Prod.snd ∧ saved = savedSets es := by
  suffices s.last = latest es ∧ s.poses = (captures es).map Prod.fst ∧ s.images = (captures es).map Prod.snd ∧
      saved = savedSets es from this.2
  induction es using List.reverseRecOn generalizing s saved with
  | nil => cases h; exact ⟨rfl, rfl, rfl, rfl⟩
  | append_singleton es e ih =>
    rw [Collector.run_append, Res.bind_ok_iff] at h
    obtain ⟨⟨s0, sv0⟩, h0, h⟩ := h
    obtain ⟨i1, i2, i3, i4⟩ := ih s0 sv0 h0
    rw [Res.bind_ok_iff] at h
    obtain ⟨⟨s1, sv1⟩, h1, h⟩ := h
    cases h
    simp only [Collector.run] at h1
    rw [Res.bind_ok_iff] at h1
    obtain ⟨⟨s2, o⟩, h2, h1⟩ := h1
    cases h1
    rw [latest_snoc, captures_snoc, savedSets_snoc, List.map_append, List.map_append]
    cases e with
    | image m f =>
      cases m with
      | none =>
        cases h2
        simp [imageOf, triggerOf, isSave, i1, i2, i3, i4]
      | some m =>
        have : s2 = { s0 with last := some m } ∧ o = none := by
          simp only [Collector.step] at h2
          cases f with
          | ok u => cases h2; exact ⟨rfl, rfl⟩
          | throw e =>
            simp only at h2
            split_ifs at h2
            cases h2; exact ⟨rfl, rfl⟩
          | abort => cases h2
          | ub => cases h2
        obtain ⟨rfl, rfl⟩ := this
        simp [imageOf, triggerOf, isSave, i2, i3, i4]
    | trigger p =>
      simp only [Collector.step] at h2
      rw [i1] at h2
      simp only [imageOf, triggerOf, isSave]
      cases p with
      | none => cases h2; simp [i1, i2, i3, i4]
      | some p =>
        cases hl : latest es with
        | none => rw [hl] at h2; cases h2; simp [i1, hl, i2, i3, i4]
        | some m => rw [hl] at h2; cases h2; simp [i1, hl, i2, i3, i4]
    | save =>
      simp only [Collector.step, Collector.data_eq s0 _ i2 i3, Res.ok_bind] at h2
      cases h2
      simp [imageOf, triggerOf, isSave, i1, i2, i3, i4]

/-- The node survives every history in which finding the target only fails with a runtime error. -/
theorem C79_survives (es : List (CollectEvent Img))
    (hf : ∀ m f, .image m f ∈ es → f = .ok () ∨ ∃ e, RuntimeKind e ∧ f = .throw e) :
    ∃ s saved, ({} : Collector Img).run es = .ok (s, saved) := by
  induction es using List.reverseRecOn with
  | nil => exact ⟨_, _, rfl⟩
  | append_singleton es e ih =>
    obtain ⟨s, sv, h⟩ := ih fun m f hm => hf m f (List.mem_append_left _ hm)
    obtain ⟨i2, i3, i4⟩ := C79_paired es s sv h
    have hstep : ∃ r, s.step e = .ok r := by
      cases e with
      | image m f =>
        cases m with
        | none => exact ⟨_, rfl⟩
        | some m => 
          rcases hf (some m) f (by simp) with rfl | ⟨e, he, rfl⟩
          · exact ⟨_, rfl⟩
          · simp only [Collector.step, he.isRuntime]; exact ⟨_, rfl⟩
      | trigger p =>
        simp only [Collector.step]
        cases p <;> cases s.last <;> exact ⟨_, rfl⟩
      | save =>
        simp only [Collector.step, Collector.data_eq s _ i2 i3, Res.ok_bind]
        exact ⟨_, rfl⟩
    obtain ⟨r, hr⟩ := hstep
    rw [Collector.run_append, h]
    simp only [Res.ok_bind, Collector.run, hr]
    exact ⟨_, _, rfl⟩

/-- A collected data set, saved and loaded again, is the list of captures. -/
theorem C79_saved_loads (P : YamlPrinter) (hP : P.WF) (C : Codec Img) (D : Disk) (hD : ∀ p, ¬ D.fail p) (fs : FS Img)
    (path : String) (hdir : fs.dirs path ∨ fs.dirs (parentDir path)) (es : List (CollectEvent Img)) (s : Collector Img)
    (saved : List (DataSet Img)) (h : ({} : Collector Img).run (es ++ [.save]) = .ok (s, saved))
    (himg : ∀ e ∈ captures es, C.empty e.2 = false ∧ C.reread e.2 = e.2)
    (hq : ∀ e ∈ captures es, e.1.q.IsUnit) :
    ∃ d, saved.getLast? = some d ∧ parseFromFile C (saveToDirectory P D fs path d).1 (indexFile path) =
      .ok (some (dataOf (captures es))) := by
  obtain ⟨-, -, h3⟩ := C79_paired _ _ _ h
  refine ⟨dataOf (captures es), ?_, ?_⟩
  · rw [h3, savedSets_snoc]
    simp [isSave]
  · apply C75_partial P hP C D hD fs path hdir
    · simp [dataOf]
    · intro m hm
      obtain ⟨e, he, rfl⟩ := List.mem_map.1 hm
      exact himg e he
    · intro T hT
      obtain ⟨e, he, rfl⟩ := List.mem_map.1 hT
      exact (rigid_iff ⟨e.1.q.toMat, e.1.t⟩).1 (hq e he).toMat_isRot

/-- Two triggers after one image, one before any image and one without a pose. -/
example (p q : TfMsg) : captures [.trigger (some p), .image (some 5) (.ok ()), .trigger (some p), .trigger none,
    .image none (.ok ()), .trigger (some q), .save] = [(p, 5), (q, 5)] := rfl

end RCT
