import Verif.Model.CollectMain
import Verif.Props.Collector
import Verif.Props.SingleMains

/-!
# C210: the data set on disk is what was captured up to the last save
-/

namespace RCT

namespace Spec

variable {Img : Type}

/-- The event without the outcome of the search for the target, which does not matter for what is collected. -/
def plainEvent : NodeEvent Img → CollectEvent Img
  | .image m => .image m (.ok ())
  | .collect tf => .trigger tf
  | .save => .save

/-- Searching or drawing the target in the image fails with an exception that is not a runtime error. -/
def FatalImage (F : Finder Img) (m : Img) : Prop :=
  ∃ e, ¬ RuntimeKind e ∧ (F.find m = .throw e ∨ ∃ fs, F.find m = .ok fs ∧ F.draw m fs = .throw e)

/-- The event ends the node. -/
def FatalEvent (F : Finder Img) (e : NodeEvent Img) : Prop := ∃ m, e = .image (some m) ∧ FatalImage F m

/-- What the node is started with. -/
def CollectSetup (W : ToolWorld Img) (dir : String) (F : Finder Img) : Prop :=
  (∃ s, W.param "base_frame" = some (.string s)) ∧ (∃ s, W.param "tool_frame" = some (.string s)) ∧
    (∃ s, W.param "image_topic" = some (.string s)) ∧ W.param "save_dir" = some (.string dir) ∧ FinderParam W F

end Spec

open Spec

variable {Img : Type}

theorem captures_congr {α : Type} (f g : α → CollectEvent Img) (hi : ∀ a, imageOf (f a) = imageOf (g a))
    (ht : ∀ a, triggerOf (f a) = triggerOf (g a)) (es : List α) : captures (es.map f) = captures (es.map g) := by
  have hl : ∀ es : List α, latest (es.map f) = latest (es.map g) := fun es => by
    unfold latest
    rw [List.filterMap_map, List.filterMap_map]
    congr 2
    exact funext hi
  unfold captures
  simp only [List.length_map, ← List.map_take, hl, List.getElem?_map]
  refine List.filterMap_congr fun i _ => ?_
  have : ((es[i]?).map f).bind triggerOf = ((es[i]?).map g).bind triggerOf := by
    cases es[i]? with
    | none => rfl
    | some a => exact ht a
  rw [this]

theorem savedSets_congr {α : Type} (f g : α → CollectEvent Img) (hi : ∀ a, imageOf (f a) = imageOf (g a))
    (ht : ∀ a, triggerOf (f a) = triggerOf (g a)) (hs : ∀ a, isSave (f a) = isSave (g a)) (es : List α) :
    savedSets (es.map f) = savedSets (es.map g) := by
  unfold savedSets
  have h1 : ∀ i : Nat, ((es.map f)[i]?).map isSave = ((es.map g)[i]?).map isSave := fun i => by
    rw [List.getElem?_map, List.getElem?_map]
    cases es[i]? with
    | none => rfl
    | some a => simp [hs]
  simp only [List.length_map, h1]
  refine List.map_congr_left fun i _ => ?_
  rw [← List.map_take, ← List.map_take, captures_congr f g hi ht]

theorem handled_imageOf (F : Finder Img) (e : NodeEvent Img) : imageOf (e.handled F) = imageOf (plainEvent e) := by
  cases e with
  | image m => cases m <;> rfl
  | collect _ => rfl
  | save => rfl

theorem handled_triggerOf (F : Finder Img) (e : NodeEvent Img) : triggerOf (e.handled F) = triggerOf (plainEvent e) := by
  cases e with
  | image m => cases m <;> rfl
  | collect _ => rfl
  | save => rfl

theorem handled_isSave (F : Finder Img) (e : NodeEvent Img) : isSave (e.handled F) = isSave (plainEvent e) := by
  cases e with
  | image m => cases m <;> rfl
  | collect _ => rfl
  | save => rfl

theorem savedSets_handled (F : Finder Img) (es : List (NodeEvent Img)) :
    savedSets (es.map (·.handled F)) = savedSets (es.map plainEvent) :=
  savedSets_congr _ _ (handled_imageOf F) (handled_triggerOf F) (handled_isSave F) es

theorem isRuntime_iff (e : Exc) : e.isRuntime = true ↔ RuntimeKind e := by
  refine ⟨fun h => ?_, RuntimeKind.isRuntime⟩
  cases e <;> simp_all [Exc.isRuntime, RuntimeKind]

/-- A callback that is not the last one of the node keeps the history; a `save` writes what was captured before. -/
theorem collect_step {F : Finder Img} {s s' : Collector Img} {o : Option (DataSet Img)} {done : List (NodeEvent Img)}
    {sv : List (DataSet Img)} {e : NodeEvent Img} (hs : ({} : Collector Img).run (done.map (·.handled F)) = .ok (s, sv))
    (h : s.step (e.handled F) = .ok (s', o)) :
    ({} : Collector Img).run ((done ++ [e]).map (·.handled F)) = .ok (s', sv ++ o.toList) := by
  rw [List.map_append, Collector.run_append, hs]
  simp only [Res.ok_bind, List.map_cons, List.map_nil, Collector.run, h, List.append_nil]

theorem step_fatal {F : Finder Img} {s : Collector Img} {done : List (NodeEvent Img)} {sv : List (DataSet Img)} {e : NodeEvent Img}
    (hs : ({} : Collector Img).run (done.map (·.handled F)) = .ok (s, sv)) :
    (∃ x, s.step (e.handled F) = .throw x) ↔ FatalEvent F e := by
  obtain ⟨i2, i3, -⟩ := C79_paired _ s sv hs
  cases e with
  | image m =>
    cases m with
    | none => simp [NodeEvent.handled, Collector.step, FatalEvent]
    | some m =>
      have : FatalEvent F (.image (some m)) ↔ FatalImage F m := by simp [FatalEvent]
      rw [this]
      simp only [NodeEvent.handled, Collector.step, FatalImage]
      cases hf : F.find m with
      | ok fs =>
        simp only [Res.ok_bind]
        cases hd : F.draw m fs with
        | ok u => simp [hd]
        | throw e =>
          simp only [Res.ok.injEq, reduceCtorEq, false_or]
          by_cases he : e.isRuntime = true
          · simp [he, (isRuntime_iff e).1 he, hd]
          · have := mt (isRuntime_iff e).2 he
            simp [he, this, hd]
        | abort => simp [hd]
        | ub => simp [hd]
      | throw e =>
        by_cases he : e.isRuntime = true
        · simp [he, (isRuntime_iff e).1 he]
        · have := mt (isRuntime_iff e).2 he
          simp [he, this]
      | abort => simp
      | ub => simp
  | collect tf =>
    simp only [NodeEvent.handled, Collector.step, FatalEvent]
    cases tf <;> cases s.last <;> simp
  | save =>
    simp only [NodeEvent.handled, Collector.step, Collector.data_eq s _ i2 i3, Res.ok_bind, FatalEvent]
    simp

/-- What `spin` does, for a node that has already handled `done`. -/
theorem collectSpin_spec (P : YamlPrinter) (D : Disk) (F : Finder Img) (dir : String) (es : List (NodeEvent Img)) :
    ∀ (done : List (NodeEvent Img)) (fs fs' : FS Img) (s : Collector Img) (sv : List (DataSet Img)) (b : Bool),
    ({} : Collector Img).run (done.map (·.handled F)) = .ok (s, sv) → collectSpin P D F dir es fs s = .ok (fs', b) →
    ∃ n ≤ es.length, (∀ e ∈ es.take n, ¬ FatalEvent F e) ∧
      (b = true ∧ n = es.length ∨ b = false ∧ ∃ e, es[n]? = some e ∧ FatalEvent F e) ∧
      ∃ extra, savedSets ((done ++ es.take n).map plainEvent) = sv ++ extra ∧
        fs' = extra.foldl (fun fs d => (saveToDirectory P D fs dir d).1) fs := by
  induction es with
  | nil =>
    intro done fs fs' s sv b hs h
    cases h
    obtain ⟨-, -, h3⟩ := C79_paired _ s sv hs
    exact ⟨0, le_refl _, by simp, .inl ⟨rfl, rfl⟩, [], by simp [h3, savedSets_handled], rfl⟩
  | cons e es ih =>
    intro done fs fs' s sv b hs h
    have hfatal := step_fatal (e := e) hs
    unfold collectSpin at h
    cases hst : s.step (e.handled F) with
    | ok r =>
      obtain ⟨s', o⟩ := r
      rw [hst] at h
      have hnot : ¬ FatalEvent F e := fun hf => by
        obtain ⟨x, hx⟩ := hfatal.2 hf
        rw [hst] at hx; cases hx
      have hrun := collect_step hs hst
      have key : ∀ fs1, collectSpin P D F dir es fs1 s' = .ok (fs', b) → fs1 = o.toList.foldl (fun fs d => (saveToDirectory P D fs dir d).1) fs →
          ∃ n ≤ (e :: es).length, (∀ e' ∈ (e :: es).take n, ¬ FatalEvent F e') ∧
            (b = true ∧ n = (e :: es).length ∨ b = false ∧ ∃ e', (e :: es)[n]? = some e' ∧ FatalEvent F e') ∧
            ∃ extra, savedSets ((done ++ (e :: es).take n).map plainEvent) = sv ++ extra ∧
              fs' = extra.foldl (fun fs d => (saveToDirectory P D fs dir d).1) fs := by
        intro fs1 h1 hfs
        obtain ⟨n, hn, k1, k2, extra, k3, k4⟩ := ih (done ++ [e]) fs1 fs' s' _ b hrun h1
        refine ⟨n + 1, by simpa using hn, ?_, ?_, o.toList ++ extra, ?_, ?_⟩
        · intro e' he'
          rw [List.take_succ_cons] at he'
          rcases List.mem_cons.1 he' with rfl | he'
          · exact hnot
          · exact k1 e' he'
        · rcases k2 with ⟨rfl, rfl⟩ | ⟨rfl, e', k2, k2'⟩
          · exact .inl ⟨rfl, rfl⟩
          · exact .inr ⟨rfl, e', by simpa using k2, k2'⟩
        · rw [List.take_succ_cons, ← List.append_assoc, ← k3]
          simp
        · rw [k4, List.foldl_append, hfs]
      cases o with
      | none => exact key fs h rfl
      | some d => exact key _ h rfl
    | throw x =>
      rw [hst] at h
      cases h
      obtain ⟨-, -, h3⟩ := C79_paired _ s sv hs
      exact ⟨0, Nat.zero_le _, by simp, .inr ⟨rfl, e, rfl, hfatal.1 ⟨x, hst⟩⟩, [], by simp [h3, savedSets_handled], rfl⟩
    | abort => rw [hst] at h; cases h
    | ub => rw [hst] at h; cases h

theorem savedSets_no_save (a b : List (CollectEvent Img)) (hb : ∀ e ∈ b, isSave e = false) : savedSets (a ++ b) = savedSets a := by
  induction b using List.reverseRecOn with
  | nil => simp
  | append_singleton b e ih =>
    rw [← List.append_assoc, savedSets_snoc, hb e (by simp), ih fun e he => hb e (by simp [he])]
    simp

theorem saves_dirs (P : YamlPrinter) (D : Disk) (dir p : String) : ∀ (l : List (DataSet Img)) (fs : FS Img), fs.dirs p →
    (l.foldl (fun fs d => (saveToDirectory P D fs dir d).1) fs).dirs p
  | [], _, h => h
  | _ :: l, _, h => saves_dirs P D dir p l _ (fold_dirs D _ _ p h)

theorem collectSetup_ok_iff (W : ToolWorld Img) (tf : Bool) (dir : String) (F : Finder Img) :
    collectSetup W tf = .ok (dir, F) ↔ CollectSetup W dir F ∧ tf = true := by
  unfold collectSetup CollectSetup
  simp only [Res.bind_ok_iff, getString_ok_iff, loadFinder_ok_iff]
  constructor
  · rintro ⟨a, ha, b, hb, c, hc, d, hd, G, hG, h⟩
    split_ifs at h with htf
    cases h
    exact ⟨⟨⟨a, ha⟩, ⟨b, hb⟩, ⟨c, hc⟩, hd, hG⟩, htf⟩
  · rintro ⟨⟨⟨a, ha⟩, ⟨b, hb⟩, ⟨c, hc⟩, hd, hG⟩, rfl⟩
    exact ⟨a, ha, b, hb, c, hc, dir, hd, F, hG, by simp⟩

/-- The run of the node: it handles the events before the first one that ends it, and what is on disk afterwards comes from the
calls of `save` among them. -/
theorem C210_run (W : ToolWorld Img) (P : YamlPrinter) (D : Disk) (es : List (NodeEvent Img)) (dir : String) (F : Finder Img)
    (hset : CollectSetup W dir F) (fs' : FS Img) (b : Bool) (h : collectMain W P D true es = .ok (fs', b)) :
    ∃ n ≤ es.length, (∀ e ∈ es.take n, ¬ FatalEvent F e) ∧
      (b = true ∧ n = es.length ∨ b = false ∧ ∃ e, es[n]? = some e ∧ FatalEvent F e) ∧
      fs' = (savedSets ((es.take n).map plainEvent)).foldl (fun fs d => (saveToDirectory P D fs dir d).1) W.fs := by
  unfold collectMain at h
  rw [(collectSetup_ok_iff W true dir F).2 ⟨hset, rfl⟩] at h
  obtain ⟨n, hn, k1, k2, extra, k3, k4⟩ := collectSpin_spec P D F dir es [] W.fs fs' {} [] b rfl h
  refine ⟨n, hn, k1, k2, ?_⟩
  rw [List.nil_append, List.nil_append] at k3
  rw [k4, k3]

/-- The data set that the tools read afterwards has exactly the pairs captured before the last `save` that the node handled, also if
the node was ended by a bad image later. Captures after it are not on disk. -/
theorem C210_disk (W : ToolWorld Img) (P : YamlPrinter) (hP : P.WF) (D : Disk) (hD : ∀ p, ¬ D.fail p) (es : List (NodeEvent Img))
    (dir : String) (F : Finder Img) (hset : CollectSetup W dir F) (hdir : W.fs.dirs dir ∨ W.fs.dirs (parentDir dir))
    (himg : ∀ m, .image (some m) ∈ es → W.codec.empty m = false) (hq : ∀ p, .collect (some p) ∈ es → p.q.IsUnit)
    (fs' : FS Img) (b : Bool) (h : collectMain W P D true es = .ok (fs', b)) :
    ∃ n ≤ es.length, (∀ e ∈ es.take n, ¬ FatalEvent F e) ∧
      (b = true ∧ n = es.length ∨ b = false ∧ ∃ e, es[n]? = some e ∧ FatalEvent F e) ∧
      ((∀ e ∈ es.take n, e ≠ .save) → fs' = W.fs) ∧
      ∀ before after, es.take n = before ++ .save :: after → (∀ e ∈ after, e ≠ .save) →
        DataParam { W with fs := fs' } (some (.string (dir ++ "/data.yaml")))
          ⟨(captures (before.map plainEvent)).map fun c => W.codec.reread c.2,
           (captures (before.map plainEvent)).map fun c => ⟨c.1.q.toMat, c.1.t⟩⟩ := by
  obtain ⟨n, hn, k1, k2, k3⟩ := C210_run W P D es dir F hset fs' b h
  have hsave : ∀ e : NodeEvent Img, e ≠ .save → isSave (plainEvent e) = false := fun e he => by
    cases e with
    | save => exact absurd rfl he
    | image m => rfl
    | collect tf => rfl
  refine ⟨n, hn, k1, k2, fun hno => ?_, fun before after hsp hno => ?_⟩
  · have := savedSets_no_save ([] : List (CollectEvent Img)) ((es.take n).map plainEvent) (fun e he => by
      obtain ⟨e', he', rfl⟩ := List.mem_map.1 he
      exact hsave e' (hno e' he'))
    rw [List.nil_append] at this
    rw [k3, this]; rfl
  · have hs : savedSets ((es.take n).map plainEvent) = savedSets (before.map plainEvent) ++ [dataOf (captures (before.map plainEvent))] := by
      rw [hsp, List.map_append, List.map_cons, show plainEvent (.save : NodeEvent Img) = .save from rfl,
        show ∀ l : List (CollectEvent Img), CollectEvent.save :: l = [.save] ++ l from fun _ => rfl, ← List.append_assoc,
        savedSets_no_save _ _ (fun e he => by
          obtain ⟨e', he', rfl⟩ := List.mem_map.1 he
          exact hsave e' (hno e' he')), savedSets_snoc]
      rfl
    refine ⟨_, rfl, ?_⟩
    have hmem : ∀ c ∈ captures (before.map plainEvent), W.codec.empty c.2 = false ∧ c.1.q.IsUnit := by
      intro c hc
      have hin : ∀ e ∈ before, e ∈ es := fun e he => List.mem_of_mem_take (by rw [hsp]; exact List.mem_append_left _ he)
      unfold captures at hc
      obtain ⟨i, -, hi⟩ := List.mem_filterMap.1 hc
      split at hi
      · rename_i p m h1 h2
        cases hi
        constructor
        · have h3 := List.mem_of_mem_getLast? (by unfold latest at h2; exact h2)
          obtain ⟨e, he, hem⟩ := List.mem_filterMap.1 h3
          obtain ⟨e', he', rfl⟩ := List.mem_map.1 (List.mem_of_mem_take he)
          cases e' with
          | image m' =>
            have : m' = some m := hem
            subst this
            exact himg m (hin _ he')
          | collect _ => cases hem
          | save => cases hem
        · rw [List.getElem?_map] at h1
          cases hb : before[i]? with
          | none => rw [hb] at h1; cases h1
          | some e' =>
            rw [hb] at h1
            have he' := List.mem_of_getElem? hb
            cases e' with
            | collect tf =>
              have : tf = some p := h1
              subst this
              exact hq p (hin _ he')
            | image _ => cases h1
            | save => cases h1
      · cases hi
    show parseFromFile W.codec fs' (indexFile dir) = _
    rw [k3, hs, List.foldl_append]
    refine (load_saved P hP W.codec D hD _ dir (hdir.imp (saves_dirs P D dir _ _ _) (saves_dirs P D dir _ _ _)) _ ?_ ?_ ?_).trans ?_
    · simp [dataOf]
    · intro m hm
      obtain ⟨c, hc, rfl⟩ := List.mem_map.1 hm
      exact (hmem c hc).1
    · intro T hT
      obtain ⟨c, hc, rfl⟩ := List.mem_map.1 hT
      exact (rigid_iff ⟨c.1.q.toMat, c.1.t⟩).1 (hmem c hc).2.toMat_isRot
    · simp [dataOf, List.map_map, Function.comp_def]

/-- Exit code 0 means: all parameters are there, the transform was available at the start, and no image ended the node. Otherwise the
exit code is -1; the process ends otherwise only if the parameter of the target finder has the wrong shape. -/
theorem C210_exit (W : ToolWorld Img) (hW : OrderlyWorld W) (hf : ¬ FinderCrash W) (P : YamlPrinter) (D : Disk) (tf : Bool)
    (es : List (NodeEvent Img)) : ∃ fs' b, collectMain W P D tf es = .ok (fs', b) ∧
      (b = true ↔ tf = true ∧ ∃ dir F, CollectSetup W dir F ∧ ∀ m, .image (some m) ∈ es → ¬ FatalImage F m) := by
  have hset : Orderly (collectSetup W tf) := by
    unfold collectSetup
    refine Orderly.bind (orderly_getString _) fun _ _ => Orderly.bind (orderly_getString _) fun _ _ =>
      Orderly.bind (orderly_getString _) fun _ _ => Orderly.bind (orderly_getString _) fun _ _ =>
      Orderly.bind ((loadFinder_outcome W hW).1 hf) fun F _ => ?_
    split_ifs
    · exact orderly_ok _
    · exact orderly_throw _
  rcases hset with ⟨⟨dir, F⟩, hs⟩ | ⟨e, hs⟩
  · obtain ⟨hset, rfl⟩ := (collectSetup_ok_iff W tf dir F).1 hs
    have hOF : OrderlyFinder F := by
      obtain ⟨l, type, init, y, -, -, h3, -, h5⟩ := hset.2.2.2.2
      exact hW.finder type init y F h3 h5
    have hspin : ∀ (es done : List (NodeEvent Img)) (fs : FS Img) (s : Collector Img) (sv : List (DataSet Img)),
        ({} : Collector Img).run (done.map (·.handled F)) = .ok (s, sv) → ∃ r, collectSpin P D F dir es fs s = .ok r := by
      intro es
      induction es with
      | nil => intro done fs s sv _; exact ⟨_, rfl⟩
      | cons e es ih =>
        intro done fs s sv hrun
        obtain ⟨i2, i3, -⟩ := C79_paired _ s sv hrun
        have hor : Orderly (s.step (e.handled F)) := by
          cases e with
          | image m =>
            cases m with
            | none => exact orderly_ok _
            | some m =>
              simp only [NodeEvent.handled, Collector.step]
              rcases hOF.find m with ⟨a, ha⟩ | ⟨x, hx⟩
              · rw [ha, Res.ok_bind]
                rcases hOF.draw m a with ⟨u, hu⟩ | ⟨x, hx⟩
                · rw [hu]; exact orderly_ok _
                · rw [hx]; simp only; split_ifs
                  · exact orderly_ok _
                  · exact orderly_throw _
              · rw [hx, Res.throw_bind]; simp only; split_ifs
                · exact orderly_ok _
                · exact orderly_throw _
          | collect tf =>
            simp only [NodeEvent.handled, Collector.step]
            cases tf <;> cases s.last <;> exact orderly_ok _
          | save =>
            simp only [NodeEvent.handled, Collector.step, Collector.data_eq s _ i2 i3, Res.ok_bind]
            exact orderly_ok _
        unfold collectSpin
        rcases hor with ⟨⟨s', o⟩, h⟩ | ⟨x, h⟩
        · rw [h]
          cases o with
          | none => exact ih _ _ _ _ (collect_step hrun h)
          | some d => exact ih _ _ _ _ (collect_step hrun h)
        · rw [h]; exact ⟨_, rfl⟩
    obtain ⟨⟨fs', b⟩, hr⟩ := hspin es [] W.fs {} [] rfl
    have hmain : collectMain W P D true es = .ok (fs', b) := by
      unfold collectMain; rw [hs]; exact hr
    refine ⟨fs', b, hmain, ?_⟩
    obtain ⟨n, hn, k1, k2, -⟩ := C210_run W P D es dir F hset fs' b hmain
    constructor
    · intro hb
      rcases k2 with ⟨-, rfl⟩ | ⟨hb', -⟩
      · rw [List.take_length] at k1
        exact ⟨rfl, dir, F, hset, fun m hm hfat => k1 _ hm ⟨m, rfl, hfat⟩⟩
      · rw [hb] at hb'; cases hb'
    · rintro ⟨-, dir', F', hset', hno⟩
      have hsame := ((collectSetup_ok_iff W true dir' F').2 ⟨hset', rfl⟩).symm.trans hs
      cases hsame
      rcases k2 with ⟨hb, -⟩ | ⟨-, e, he, m, rfl, hfat⟩
      · exact hb
      · exact absurd hfat (hno m (List.mem_of_getElem? he))
  · refine ⟨W.fs, false, by unfold collectMain; rw [hs], ?_⟩
    constructor
    · intro h; cases h
    · rintro ⟨rfl, dir, F, hset, -⟩
      rw [(collectSetup_ok_iff W true dir F).2 ⟨hset, rfl⟩] at hs
      cases hs

/-- A parameter `target_finder` of the wrong shape ends the process. -/
theorem C210_crash (W : ToolWorld Img) (hW : OrderlyWorld W) (hf : FinderCrash W) (P : YamlPrinter) (D : Disk) (tf : Bool)
    (es : List (NodeEvent Img)) (hp : ∀ k ∈ ["base_frame", "tool_frame", "image_topic", "save_dir"], ∃ s, W.param k = some (.string s)) :
    collectMain W P D tf es = .abort := by
  obtain ⟨a, ha⟩ := hp "base_frame" (by simp)
  obtain ⟨b, hb⟩ := hp "tool_frame" (by simp)
  obtain ⟨c, hc⟩ := hp "image_topic" (by simp)
  obtain ⟨d, hd⟩ := hp "save_dir" (by simp)
  have : collectSetup W tf = .abort := by
    unfold collectSetup
    rw [(getString_ok_iff _ _).2 ha, Res.ok_bind, (getString_ok_iff _ _).2 hb, Res.ok_bind, (getString_ok_iff _ _).2 hc, Res.ok_bind,
      (getString_ok_iff _ _).2 hd, Res.ok_bind, (loadFinder_outcome W hW).2 hf]
    rfl
  unfold collectMain
  rw [this]

section
variable (view : Nat → List Corr2)

/-- The files before the node runs: only directories. -/
def emptyFiles : FS Nat := ⟨fun _ => True, fun _ => none⟩

/-- The parameters of the node in the example world. -/
noncomputable def collectWorld : ToolWorld Nat :=
  { exampleWorld ⟨fun _ => false, id⟩ emptyFiles "d" 1 view with
    param := fun k => if k ∈ ["base_frame", "tool_frame", "image_topic", "save_dir"] then some (.string k) else
      (exampleWorld ⟨fun _ => false, id⟩ emptyFiles "d" 1 view).param k }

theorem collectWorld_setup : CollectSetup (collectWorld view) "save_dir" (exampleFinder view) :=
  ⟨⟨_, rfl⟩, ⟨_, rfl⟩, ⟨_, rfl⟩, rfl, ⟨_, "square", fun _ => .ok (exampleFinder view), _, rfl, rfl, rfl, rfl, rfl⟩⟩

theorem collectWorld_orderly (hlen : ∀ m, (view m).length < 2 ^ 64) : OrderlyWorld (collectWorld view) :=
  let h := exampleWorld_orderly ⟨fun _ => false, id⟩ emptyFiles "d" 1 view hlen
  ⟨h.init, h.finder, h.draws⟩

end

/-- Case: an image, a capture, `save`, and a capture that is not saved. The first three events are on disk, and the exit code is 0. -/
example : ∃ (W : ToolWorld Nat) (fs' : FS Nat) (d : DataSet Nat),
    collectMain W exPrinter ⟨fun _ => False⟩ true
      [.image (some 3), .collect (some ⟨⟨1, 2, 3⟩, ⟨1, 0, 0, 0⟩⟩), .save, .image (some 4), .collect (some ⟨⟨4, 5, 6⟩, ⟨1, 0, 0, 0⟩⟩)] =
        .ok (fs', true) ∧
    DataParam { W with fs := fs' } (some (.string "save_dir/data.yaml")) d ∧ d.images = [3] ∧
    d.poses = [⟨(⟨1, 0, 0, 0⟩ : Quat).toMat, ⟨1, 2, 3⟩⟩] := by
  have hW : OrderlyWorld (collectWorld fun _ => []) := collectWorld_orderly _ (by simp)
  have hset := collectWorld_setup fun _ => []
  obtain ⟨es, hes⟩ : ∃ es : List (NodeEvent Nat), es = [.image (some 3), .collect (some ⟨⟨1, 2, 3⟩, ⟨1, 0, 0, 0⟩⟩), .save,
    .image (some 4), .collect (some ⟨⟨4, 5, 6⟩, ⟨1, 0, 0, 0⟩⟩)] := ⟨_, rfl⟩
  have hcrash : ¬ FinderCrash (collectWorld fun _ => []) := by
    intro hcr
    have := (loadFinder_ok_iff _ _).2 hset.2.2.2.2
    rw [(loadFinder_outcome _ hW).2 hcr] at this
    cases this
  obtain ⟨fs', b, hm, hb⟩ := C210_exit _ hW hcrash exPrinter ⟨fun _ => False⟩ true es
  have hb : b = true := hb.2 ⟨rfl, _, _, hset, fun m _ ⟨e, _, h⟩ => by
    rcases h with h | ⟨fs, _, h⟩ <;> cases h⟩
  subst hb
  obtain ⟨n, hn, -, k, -, k3⟩ := C210_disk _ exPrinter exPrinter_wf ⟨fun _ => False⟩ (fun _ h => h) es _ _ hset (.inl trivial)
    (fun _ _ => rfl) (by
      rw [hes]; intro p hp
      simp only [List.mem_cons, NodeEvent.collect.injEq, Option.some.injEq, reduceCtorEq, false_or, List.not_mem_nil, or_false] at hp
      rcases hp with rfl | rfl <;> norm_num [Quat.IsUnit, Quat.normSq]) fs' true hm
  rcases k with ⟨-, rfl⟩ | ⟨h, -⟩
  · have := k3 [.image (some 3), .collect (some ⟨⟨1, 2, 3⟩, ⟨1, 0, 0, 0⟩⟩)]
      [.image (some 4), .collect (some ⟨⟨4, 5, 6⟩, ⟨1, 0, 0, 0⟩⟩)] (by rw [List.take_length, hes]; rfl) (by simp)
    subst hes
    exact ⟨_, fs', _, hm, this, rfl, rfl⟩
  · cases h

/-- Case: the parameter `target_finder` is a number. -/
example : collectMain { collectWorld (fun _ => []) with param := fun k => if k = "target_finder" then some (.double 1) else some (.string k) }
    exPrinter ⟨fun _ => False⟩ true [] = .abort := by
  refine C210_crash _ ?_ ?_ _ _ _ _ fun k hk => ⟨k, ?_⟩
  · exact ⟨(collectWorld_orderly (fun _ => []) (by simp)).init, (collectWorld_orderly (fun _ => []) (by simp)).finder,
      (collectWorld_orderly (fun _ => []) (by simp)).draws⟩
  · exact ⟨.double 1, rfl, by simp, .inl (by simp)⟩
  · simp only [List.mem_cons, List.not_mem_nil, or_false] at hk
    rcases hk with rfl | rfl | rfl | rfl <;> rfl

end RCT
