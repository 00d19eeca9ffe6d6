import Verif.Lemmas.Collect
import Verif.Lemmas.Vec

/-!
# C84: what the wrist and static camera tools collect
-/

namespace RCT

open Spec

variable {Img : Type}

/-! ### C84 -/

theorem acceptImage_ok_iff {E : ToolEnv Img} {mkObs : Iso → List Corr2 → Obs Corr2} {d : DataSet Img} {i : Nat} {m : Img}
    {fs : TargetFeatures} {o : Obs Corr2} :
    acceptImage E mkObs d i m = .ok (fs, o) ↔ E.find m = .ok fs ∧ fs ≠ [] ∧
      ∃ T cs, d.poses[i]? = some T ∧ E.create fs = .ok cs ∧ E.check i cs = .ok () ∧ o = mkObs T cs := by
  unfold acceptImage
  rw [Res.bind_ok_iff]
  constructor
  · rintro ⟨fs', hf, h⟩
    split_ifs at h with he
    rw [Res.bind_ok_iff] at h
    obtain ⟨T, hT, h⟩ := h
    rw [Res.bind_ok_iff] at h
    obtain ⟨cs, hc, h⟩ := h
    rw [Res.bind_ok_iff] at h
    obtain ⟨_, hk, h⟩ := h
    cases h
    exact ⟨hf, by simpa using he, T, cs, (collectIdx_ok_iff _ _ _).1 hT, hc, hk, rfl⟩
  · rintro ⟨hf, hne, T, cs, hT, hc, hk, rfl⟩
    refine ⟨fs, hf, ?_⟩
    rw [if_neg (by simpa using hne), (collectIdx_ok_iff _ _ _).2 hT, Res.ok_bind, hc, Res.ok_bind, hk, Res.ok_bind]

/-- What an accepted image contributes. -/
private def Item (E : ToolEnv Img) (mkObs : Iso → List Corr2 → Obs Corr2) (d : DataSet Img) (i : Nat) (e : Obs Corr2 × Img) : Prop :=
  d.images[i]? = some e.2 ∧ ∃ T cs, ImageAccepted E i e.2 cs ∧ d.poses[i]? = some T ∧ e.1 = mkObs T cs

private def addItem (s : Found Img) (e : Obs Corr2 × Img) : Found Img := ⟨s.observations ++ [e.1], s.images ++ [e.2]⟩

private theorem addItem_foldl (as : List (Obs Corr2 × Img)) (s : Found Img) :
    as.foldl addItem s = ⟨s.observations ++ as.map Prod.fst, s.images ++ as.map Prod.snd⟩ := by
  induction as generalizing s with
  | nil => simp
  | cons a as ih => rw [List.foldl_cons, ih]; simp [addItem]

private theorem collectStep_ok {E : ToolEnv Img} {mkObs : Iso → List Corr2 → Obs Corr2} {d : DataSet Img} {s s' : Found Img}
    {i : Nat} (h : collectStep E mkObs d s i = .ok s') :
    (s' = s ∧ ¬ ∃ e, Item E mkObs d i e) ∨ ∃ e, Item E mkObs d i e ∧ s' = addItem s e := by
  unfold collectStep at h
  rw [Res.bind_ok_iff] at h
  obtain ⟨m, hm, h⟩ := h
  rw [collectIdx_ok_iff] at hm
  cases ha : acceptImage E mkObs d i m with
  | ok r =>
    obtain ⟨fs, o⟩ := r
    right
    rw [acceptImage_ok_iff] at ha
    rw [acceptImage_ok_iff.2 ha] at h
    obtain ⟨hf, hne, T, cs, hT, hc, hk, rfl⟩ := ha
    refine ⟨(mkObs T cs, m), ⟨hm, T, cs, ⟨fs, hf, hne, hc, hk⟩, hT, rfl⟩, ?_⟩
    simp only at h
    cases hd : E.draw m fs with
    | ok _ => rw [hd] at h; cases h; rfl
    | throw e =>
      rw [hd] at h
      simp only at h
      split_ifs at h
      cases h; rfl
    | abort => rw [hd] at h; cases h
    | ub => rw [hd] at h; cases h
  | throw e =>
    left
    rw [ha] at h
    simp only at h
    split_ifs at h
    cases h
    refine ⟨rfl, ?_⟩
    rintro ⟨⟨o, m'⟩, hm', T, cs, ⟨fs, hf, hne, hc, hk⟩, hT, -⟩
    simp only at hm' hf
    rw [hm] at hm'
    cases hm'
    rw [acceptImage_ok_iff.2 ⟨hf, hne, T, cs, hT, hc, hk, rfl⟩] at ha
    cases ha
  | abort => rw [ha] at h; cases h
  | ub => rw [ha] at h; cases h

private theorem collect_ok {E : ToolEnv Img} {mkObs : Iso → List Corr2 → Obs Corr2} {d : DataSet Img} {s : Found Img}
    (h : Res.foldList (collectStep E mkObs d) {} (List.range d.images.length) = .ok s) :
    ∃ js items, SelectedAt d.images.length (Item E mkObs d) js items ∧ s.observations = items.map Prod.fst ∧
      s.images = items.map Prod.snd := by
  obtain ⟨js, as, hs, rfl⟩ := fold_collect (P := Item E mkObs d) (add := addItem) (fun s i s' _ => collectStep_ok) h
  refine ⟨js, as, hs, ?_, ?_⟩ <;> rw [addItem_foldl] <;> simp

private theorem selectedAt_congr {A : Type} {n : Nat} {P Q : Nat → A → Prop} {js : List Nat} {as : List A}
    (h : SelectedAt n P js as) (hPQ : ∀ i a, P i a ↔ Q i a) : SelectedAt n Q js as := by
  have : P = Q := by funext i a; exact propext (hPQ i a)
  rwa [← this]

/-- The wrist camera tool: whenever the loop over the images ends, the observations and the images kept for validation come,
in the same order, from exactly the images in which the target was found and accepted (numbers `js`); each observation has
the correspondences and the wrist pose of its own image. -/
theorem C84_wrist (E : ToolEnv Img) (d : DataSet Img) (s : Found Img) (h : wristCollect E d = .ok s) :
    ∃ js items, SelectedAt d.images.length (WristItem E d) js items ∧ s.observations = items.map Prod.fst ∧
      s.images = items.map Prod.snd := by
  obtain ⟨js, items, hs, ho, hi⟩ := collect_ok h
  refine ⟨js, items, selectedAt_congr hs fun i e => ?_, ho, hi⟩
  obtain ⟨o, m⟩ := e
  constructor
  · rintro ⟨hm, T, cs, ha, hT, rfl⟩; exact ⟨hm, ha, hT, rfl⟩
  · rintro ⟨hm, ha, hT, h1⟩
    obtain ⟨cs, A, B⟩ := o
    exact ⟨hm, A, cs, ha, hT, by simp only at h1; rw [h1]; rfl⟩

/-- The static camera tool. -/
theorem C84_static (E : ToolEnv Img) (d : DataSet Img) (s : Found Img) (h : staticCollect E d = .ok s) :
    ∃ js items, SelectedAt d.images.length (StaticItem E d) js items ∧ s.observations = items.map Prod.fst ∧
      s.images = items.map Prod.snd := by
  obtain ⟨js, items, hs, ho, hi⟩ := collect_ok h
  refine ⟨js, items, selectedAt_congr hs fun i e => ?_, ho, hi⟩
  obtain ⟨o, m⟩ := e
  constructor
  · rintro ⟨hm, T, cs, ha, hT, rfl⟩; exact ⟨hm, ha, hT, rfl⟩
  · rintro ⟨hm, ha, hT, h1⟩
    obtain ⟨cs, A, B⟩ := o
    exact ⟨hm, B, cs, ha, hT, by simp only at h1; rw [h1]; rfl⟩

private theorem collect_returns {E : ToolEnv Img} {d : DataSet Img} (mkObs : Iso → List Corr2 → Obs Corr2)
    (hlen : d.images.length ≤ d.poses.length)
    (hfind : ∀ m, ReturnsOrRuntime (E.find m)) (hcreate : ∀ fs, ReturnsOrRuntime (E.create fs))
    (hcheck : ∀ i cs, ReturnsOrRuntime (E.check i cs)) (hdraw : ∀ m fs, ReturnsOrRuntime (E.draw m fs)) :
    ∃ s, Res.foldList (collectStep E mkObs d) {} (List.range d.images.length) = .ok s := by
  refine fold_returns (fun s i hi => ?_) _
  have hT : Res.idxList d.poses i = .ok (d.poses[i]'(by omega)) := collectIdx_lt (by omega)
  unfold collectStep
  rw [collectIdx_lt hi, Res.ok_bind]
  have hacc : ReturnsOrRuntime (acceptImage E mkObs d i d.images[i]) := by
    unfold acceptImage
    rcases hfind d.images[i] with ⟨fs, hf⟩ | ⟨e, he, hf⟩
    · rw [hf, Res.ok_bind]
      split_ifs with hemp
      · exact Or.inr ⟨.runtimeError, by simp [RuntimeKind], rfl⟩
      · rw [hT, Res.ok_bind]
        rcases hcreate fs with ⟨cs, hc⟩ | ⟨e, he, hc⟩
        · rw [hc, Res.ok_bind]
          rcases hcheck i cs with ⟨u, hk⟩ | ⟨e, he, hk⟩
          · rw [hk]; exact Or.inl ⟨_, rfl⟩
          · rw [hk]; exact Or.inr ⟨e, he, rfl⟩
        · rw [hc]; exact Or.inr ⟨e, he, rfl⟩
    · rw [hf]; exact Or.inr ⟨e, he, rfl⟩
  rcases hacc with ⟨⟨fs, o⟩, ha⟩ | ⟨e, he, ha⟩
  · rw [ha]
    simp only
    rcases hdraw d.images[i] fs with ⟨u, hd⟩ | ⟨e, he, hd⟩
    · rw [hd]; exact ⟨_, rfl⟩
    · rw [hd]; simp only; rw [if_pos he.isRuntime]; exact ⟨_, rfl⟩
  · rw [ha]; simp only; rw [if_pos he.isRuntime]; exact ⟨_, rfl⟩

/-- Both loops end for every pattern of failures that are reported by exceptions derived from `std::runtime_error`. -/
theorem C84_returns (E : ToolEnv Img) (d : DataSet Img) (hlen : d.images.length ≤ d.poses.length)
    (hfind : ∀ m, ReturnsOrRuntime (E.find m)) (hcreate : ∀ fs, ReturnsOrRuntime (E.create fs))
    (hcheck : ∀ i cs, ReturnsOrRuntime (E.check i cs)) (hdraw : ∀ m fs, ReturnsOrRuntime (E.draw m fs)) :
    (∃ s, wristCollect E d = .ok s) ∧ ∃ s, staticCollect E d = .ok s :=
  ⟨collect_returns wristObs hlen hfind hcreate hcheck hdraw, collect_returns staticObs hlen hfind hcreate hcheck hdraw⟩

theorem foldList_step {α σ : Type} {f : σ → α → Res σ} : ∀ {l : List α} {s r : σ}, Res.foldList f s l = .ok r → ∀ {a : α}, a ∈ l →
    ∃ s1 s2, f s1 a = .ok s2
  | [], _, _, _, _, ha => by cases ha
  | b :: l, s, r, h, a, ha => by
    rw [Res.foldList_cons, Res.bind_ok_iff] at h
    obtain ⟨s', h1, h2⟩ := h
    rcases List.mem_cons.1 ha with rfl | ha
    · exact ⟨s, s', h1⟩
    · exact foldList_step h2 ha

/-- A loop that ends has met no other failures of the target finder: exceptions of other kinds end the tool. -/
theorem C84_other_exceptions (E : ToolEnv Img) (d : DataSet Img) (s : Found Img)
    (h : wristCollect E d = .ok s ∨ staticCollect E d = .ok s) : ∀ m ∈ d.images, ReturnsOrRuntime (E.find m) := by
  have key : ∀ mkObs, Res.foldList (collectStep E mkObs d) {} (List.range d.images.length) = .ok s →
      ∀ m ∈ d.images, ReturnsOrRuntime (E.find m) := by
    intro mkObs h m hm
    obtain ⟨i, hi, rfl⟩ := List.getElem_of_mem hm
    obtain ⟨s1, s2, hs⟩ := foldList_step h (List.mem_range.2 hi)
    unfold collectStep at hs
    rw [collectIdx_lt hi, Res.ok_bind] at hs
    unfold acceptImage at hs
    cases hf : E.find d.images[i] with
    | ok fs => exact Or.inl ⟨fs, rfl⟩
    | throw e =>
      rw [hf] at hs
      refine Or.inr ⟨e, ?_, rfl⟩
      cases e <;> simp [Res.bind, Exc.isRuntime, RuntimeKind] at hs ⊢
    | abort => rw [hf] at hs; cases hs
    | ub => rw [hf] at hs; cases hs
  rcases h with h | h
  · exact key _ h
  · exact key _ h

/-- With observations and images of the same number, the validation step shows every image with its own observation, in
order, and draws the target points where a camera with the calibrated poses sees them. -/
theorem C84_analysis (items : List (Obs Corr2 × Img)) (cam tgt : Iso) :
    ∃ shown, analysisItems (items.map Prod.fst) (items.map Prod.snd) cam tgt = .ok shown ∧
      List.Forall₂ (fun (e : Obs Corr2 × Img) (x : Obs Corr2 × Img × Iso) => x.1 = e.1 ∧ x.2.1 = e.2 ∧
        ∀ p : V3, x.2.2.apply p = cam.inv.apply (e.1.toCameraMount.inv.apply (e.1.toTargetMount.apply (tgt.apply p)))) items shown := by
  refine ⟨items.map fun e => (e.1, e.2, cam.inv * e.1.toCameraMount.inv * e.1.toTargetMount * tgt), ?_, ?_⟩
  · unfold analysisItems
    rw [Res.mapList_ok_iff, List.forall₂_iff_get]
    refine ⟨by simp, fun i h1 h2 => ?_⟩
    simp only [List.length_range, List.length_map] at h1 h2
    simp only [List.get_eq_getElem, List.getElem_range, List.getElem_map]
    rw [atList_lt (by simpa using h1), Res.ok_bind, collectIdx_lt (by simpa using h1), Res.ok_bind]
    simp
  · rw [List.forall₂_map_right_iff, List.forall₂_same]
    intro e _
    exact ⟨rfl, rfl, fun p => by simp only [Iso.apply_mul]⟩

/-- Three images, the second of which is not recognised: both loops end, and what they return is described above. -/
example : ∃ s : Found Nat, wristCollect
    { find := fun m => if m = 8 then .throw .runtimeError else .ok [(0, [⟨1, 2⟩])], create := fun _ => .ok [],
      draw := fun _ _ => .ok (), check := fun _ _ => .ok () } ⟨[7, 8, 9], [1, 1, 1]⟩ = .ok s ∧ s.images = [7, 9] :=
  ⟨_, rfl, rfl⟩

end RCT
