import Verif.Lemmas.Collect

/-!
# C85, C86, C107: images shown by the multi step tool and used by the noise tool
-/

namespace RCT

open Spec

variable {Img : Type}

theorem count_eq_rows_iff {s : CorrDataSet} (hp : ProperFlags s) {i : Nat} (hi : i < s.cols) :
    s.imageCameraCount i = s.rows ↔ SeenByAll s i := by
  unfold CorrDataSet.imageCameraCount SeenByAll
  have key : ∀ n, n ≤ s.rows → ((List.range n).map fun c => s.mask c i).sum ≤ n ∧
      (((List.range n).map fun c => s.mask c i).sum = n ↔ ∀ c, c < n → s.mask c i = 1) := by
    intro n
    induction n with
    | zero => intro _; simp
    | succ n ih =>
      intro hn
      obtain ⟨h1, h2⟩ := ih (by omega)
      rw [List.range_succ, List.map_append, List.sum_append]
      simp only [List.map_cons, List.map_nil, List.sum_cons, List.sum_nil, Nat.add_zero]
      rcases hp n i (by omega) hi with hz | ho
      · rw [hz]
        refine ⟨by omega, ⟨fun h => by omega, fun h => ?_⟩⟩
        have := h n (by omega)
        omega
      · rw [ho]
        refine ⟨by omega, ⟨fun h c hc => ?_, fun h => ?_⟩⟩
        · by_cases hcn : c = n
          · rw [hcn]; exact ho
          · exact (h2.1 (by omega)) c (by omega)
        · rw [h2.2 fun c hc => h c (by omega)]
  exact (key s.rows (Nat.le_refl _)).2

/-! ### C107 -/

private def addStep (W : Iso) (d : StepData) (e : Iso × List (List Corr2)) : StepData :=
  ⟨d.targetGuesses ++ [e.1 * W], d.wristPoses ++ [e.1], d.observations ++ [e.2]⟩

private theorem addStep_foldl (W : Iso) (as : List (Iso × List (List Corr2))) (d : StepData) : as.foldl (addStep W) d =
    ⟨d.targetGuesses ++ as.map (fun e => e.1 * W), d.wristPoses ++ as.map Prod.fst, d.observations ++ as.map Prod.snd⟩ := by
  induction as generalizing d with
  | nil => simp
  | cons a as ih => rw [List.foldl_cons, ih]; simp [addStep]

private theorem sharedItem_corrs (s : CorrDataSet) (n i : Nat) :
    ((List.range n).map fun c => s.corr c i).length = n ∧
      ∀ c, c < n → ((List.range n).map fun c => s.corr c i)[c]? = some (s.corr c i) :=
  ⟨by simp, fun c hc => by simp [hc]⟩

/-- The multi step tool: whenever the loop over the images ends, its data come from exactly the images seen by all cameras
(numbers `js`), in order; pose, guess and observations with the same number belong to the same image. -/
theorem C107_multi_step (s : CorrDataSet) (hp : ProperFlags s) (first : DataSet Img) (rest : List (DataSet Img)) (W : Iso)
    (d : StepData) (h : multiStepCollect s (first :: rest) W = .ok d) :
    ∃ js items, SelectedAt s.cols (SharedItem s first) js items ∧ d.wristPoses = items.map Prod.fst ∧
      d.observations = items.map Prod.snd ∧ d.targetGuesses = items.map fun e => e.1 * W := by
  unfold multiStepCollect at h
  obtain ⟨js, as, hs, rfl⟩ := fold_collect (P := SharedItem s first) (add := addStep W) (by
    intro d i d' hi hstep
    split_ifs at hstep with hc
    · right
      rw [count_eq_rows_iff hp hi] at hc
      have h0 : Res.idxList (first :: rest) 0 = .ok first := rfl
      rw [h0, Res.ok_bind, Res.bind_ok_iff] at hstep
      obtain ⟨T, hT, hstep⟩ := hstep
      cases hstep
      obtain ⟨hl, hcorr⟩ := sharedItem_corrs s s.rows i
      exact ⟨(T, _), ⟨hc, (collectIdx_ok_iff _ _ _).1 hT, hl, hcorr⟩, rfl⟩
    · left
      rw [count_eq_rows_iff hp hi] at hc
      cases hstep
      exact ⟨rfl, fun ⟨e, he⟩ => hc he.1⟩) h
  exact ⟨js, as, hs, by rw [addStep_foldl]; simp, by rw [addStep_foldl]; simp, by rw [addStep_foldl]; simp⟩

/-- The loop ends if there is a pose for every image. -/
theorem C107_multi_step_returns (s : CorrDataSet) (first : DataSet Img) (rest : List (DataSet Img)) (W : Iso)
    (hlen : s.cols ≤ first.poses.length) : ∃ d, multiStepCollect s (first :: rest) W = .ok d := by
  unfold multiStepCollect
  refine fold_returns (fun d i hi => ?_) _
  split_ifs
  · have h0 : Res.idxList (first :: rest) 0 = .ok first := rfl
    rw [h0, Res.ok_bind, collectIdx_lt (by omega : i < first.poses.length), Res.ok_bind]
    exact ⟨_, rfl⟩
  · exact ⟨_, rfl⟩

/-- The PnP tool for several cameras: exactly the images seen by all cameras, in order, each with its own pose, its own image
of the first camera and the correspondences all cameras found in it. -/
theorem C107_multi_pnp (s : CorrDataSet) (hp : ProperFlags s) (first : DataSet Img) (rest : List (DataSet Img))
    (out : List (Iso × Img × List (List Corr2))) (h : multiPnpItems s (first :: rest) s.rows = .ok out) :
    ∃ js, SelectedAt s.cols (fun i (e : Iso × Img × List (List Corr2)) =>
      SharedItem s first i (e.1, e.2.2) ∧ first.images[i]? = some e.2.1) js out := by
  unfold multiPnpItems at h
  obtain ⟨js, as, hs, rfl⟩ := fold_collect (P := fun i (e : Iso × Img × List (List Corr2)) =>
      SharedItem s first i (e.1, e.2.2) ∧ first.images[i]? = some e.2.1) (add := fun acc e => acc ++ [e]) (by
    intro d i d' hi hstep
    split_ifs at hstep with hc
    · right
      rw [count_eq_rows_iff hp hi] at hc
      have h0 : Res.idxList (first :: rest) 0 = .ok first := rfl
      rw [h0, Res.ok_bind, Res.bind_ok_iff] at hstep
      obtain ⟨T, hT, hstep⟩ := hstep
      rw [Res.bind_ok_iff] at hstep
      obtain ⟨m, hm, hstep⟩ := hstep
      cases hstep
      obtain ⟨hl, hcorr⟩ := sharedItem_corrs s s.rows i
      exact ⟨(T, m, _), ⟨⟨hc, (collectIdx_ok_iff _ _ _).1 hT, hl, hcorr⟩, (collectIdx_ok_iff _ _ _).1 hm⟩, rfl⟩
    · left
      rw [count_eq_rows_iff hp hi] at hc
      cases hstep
      exact ⟨rfl, fun ⟨e, he⟩ => hc he.1.1⟩) h
  refine ⟨js, ?_⟩
  have : ∀ (acc : List (Iso × Img × List (List Corr2))), as.foldl (fun acc e => acc ++ [e]) acc = acc ++ as := by
    clear hs h
    induction as with
    | nil => simp
    | cons a as ih => intro acc; rw [List.foldl_cons, ih]; simp
  rw [this]
  exact hs

/-! ### C85

Full statement: with `js` as in C107, the image drawn on for the `i`-th observation is `first.images[js[i]]`. -/

private theorem asc_ge {js : List Nat} (h : js.Pairwise (· < ·)) : ∀ (i : Nat) j, js[i]? = some j → i ≤ j := by
  intro i
  induction i with
  | zero => intro j _; omega
  | succ i ih =>
    intro j hj
    have hlt : i + 1 < js.length := (List.getElem?_eq_some_iff.1 hj).1
    have h1 := ih js[i] (by simp)
    have h2 : js[i] < js[i + 1] := List.pairwise_iff_getElem.1 h i (i + 1) (by omega) hlt (by omega)
    have h3 : js[i + 1] = j := (List.getElem?_eq_some_iff.1 hj).2
    omega

private theorem multiStepImages_ok {first : DataSet Img} {rest : List (DataSet Img)} {d : StepData} {ims : List Img}
    (h : multiStepImages (first :: rest) d = .ok ims) :
    ims.length = d.wristPoses.length ∧ ∀ i, i < d.wristPoses.length → ims[i]? = first.images[i]? := by
  unfold multiStepImages at h
  have h0 : Res.idxList (first :: rest) 0 = .ok first := rfl
  rw [h0] at h
  simp only [Res.ok_bind] at h
  have hl := Res.mapList_ok_length h
  rw [Res.mapList_ok_iff, List.forall₂_iff_get] at h
  refine ⟨by simpa using hl, fun i hi => ?_⟩
  have := h.2 i (by simpa using hi) (by rw [hl]; simpa using hi)
  simp only [List.get_eq_getElem, List.getElem_range] at this
  rw [collectIdx_ok_iff] at this
  rw [this]
  exact List.getElem?_eq_getElem _

/-- The right images are drawn on exactly if no image before the last one used was left out (the images being different). In
particular, after the first image not seen by every camera all reprojections are drawn on wrong images. -/
theorem C85_negation (s : CorrDataSet) (first : DataSet Img) (rest : List (DataSet Img))
    (d : StepData) (js : List Nat) (items : List (Iso × List (List Corr2)))
    (hsel : SelectedAt s.cols (SharedItem s first) js items) (hposes : d.wristPoses = items.map Prod.fst)
    (hcols : first.images.length = s.cols) (hnd : first.images.Nodup)
    (ims : List Img) (himg : multiStepImages (first :: rest) d = .ok ims) :
    (∀ i j : Nat, js[i]? = some j → ims[i]? = first.images[j]?) ↔ ∀ j j', j < j' → j' ∈ js → j ∈ js := by
  obtain ⟨hl, hi⟩ := multiStepImages_ok himg
  have hjl : js.length = d.wristPoses.length := by rw [hposes, List.length_map]; exact hsel.2.2.length_eq
  have hjc : ∀ j ∈ js, j < first.images.length := fun j hj => by rw [hcols]; exact ((hsel.2.1 j).1 hj).1
  constructor
  · intro h j j' hlt hj'
    obtain ⟨k, hk, hkj⟩ := List.mem_iff_getElem.1 hj'
    have eq : ∀ (i : Nat) (hi' : i < js.length), js[i] = i := by
      intro i hi'
      have h1 := h i js[i] (by simp)
      rw [hi i (by omega)] at h1
      have hjlt := hjc js[i] (List.getElem_mem _)
      have hge := asc_ge hsel.1 i js[i] (by simp)
      rw [List.getElem?_eq_getElem (by omega), List.getElem?_eq_getElem hjlt] at h1
      exact ((List.Nodup.getElem_inj_iff hnd).1 (Option.some.inj h1)).symm
    have hk' := eq k hk
    have := eq j (by omega)
    exact this ▸ List.getElem_mem _
  · intro h i j hij
    have hil : i < js.length := (List.getElem?_eq_some_iff.1 hij).1
    have hje : js[i] = j := (List.getElem?_eq_some_iff.1 hij).2
    rw [hi i (by omega)]
    suffices hji : j = i by rw [hji]
    have hge := asc_ge hsel.1 i j hij
    -- all numbers below j are in js and hence at positions below i
    have hsub : (List.range j) ⊆ js.take i := by
      intro x hx
      have hxj : x < j := List.mem_range.1 hx
      obtain ⟨k, hk, hkx⟩ := List.mem_iff_getElem.1 (h x j hxj (hje ▸ List.getElem_mem _))
      have hki : k < i := by
        by_contra hcon
        rcases Nat.lt_or_ge i k with hlt | hge'
        · have := List.pairwise_iff_getElem.1 hsel.1 i k hil hk hlt
          omega
        · have : k = i := by omega
          subst this
          omega
      rw [List.mem_take_iff_getElem]
      exact ⟨k, by omega, by simpa using hkx⟩
    have hle := (List.nodup_range (n := j)).subperm hsub |>.length_le
    simp only [List.length_range, List.length_take] at hle
    omega

/-- Proved part of C85: if every image was seen by all cameras, each reprojection is drawn on the image of its observation. -/
theorem C85_partial (s : CorrDataSet) (first : DataSet Img) (rest : List (DataSet Img))
    (d : StepData) (js : List Nat) (items : List (Iso × List (List Corr2)))
    (hsel : SelectedAt s.cols (SharedItem s first) js items) (hposes : d.wristPoses = items.map Prod.fst)
    (hall : ∀ i, i < s.cols → SeenByAll s i) (hp : s.cols ≤ first.poses.length)
    (ims : List Img) (himg : multiStepImages (first :: rest) d = .ok ims) (i j : Nat) (hj : js[i]? = some j) :
    ims[i]? = first.images[j]? := by
  obtain ⟨hl, hi⟩ := multiStepImages_ok himg
  have hjl : js.length = d.wristPoses.length := by rw [hposes, List.length_map]; exact hsel.2.2.length_eq
  have hil : i < js.length := (List.getElem?_eq_some_iff.1 hj).1
  rw [hi i (by omega)]
  suffices hji : js = List.range s.cols by
    rw [hji] at hj hil
    rw [List.length_range] at hil
    rw [List.getElem?_range hil] at hj
    cases hj; rfl
  have hmem : ∀ x, x ∈ js ↔ x ∈ List.range s.cols := by
    intro x
    rw [hsel.2.1, List.mem_range]
    refine ⟨fun h => h.1, fun h => ⟨h, (first.poses[x]'(by omega), (List.range s.rows).map fun c => s.corr c x), hall x h, by simp, ?_⟩⟩
    exact sharedItem_corrs s s.rows x
  have hperm : js.Perm (List.range s.cols) :=
    (List.perm_ext_iff_of_nodup (hsel.1.imp fun h => Nat.ne_of_lt h) List.nodup_range).2 hmem
  exact hperm.eq_of_pairwise (fun a b _ _ h1 h2 => absurd h2 (Nat.lt_asymm h1)) hsel.1 List.pairwise_lt_range

/-- Two cameras, three images, the second one not seen by the second camera: the second observation is of image 2 but drawn
on image 1. -/
example : ∃ d : StepData, multiStepCollect ⟨2, 3, fun c i => if c = 1 ∧ i = 1 then 0 else 1, fun _ _ => []⟩
    [(⟨[10, 11, 12], [1, 1, 1]⟩ : DataSet Nat), ⟨[20, 21, 22], [1, 1, 1]⟩] 1 = .ok d ∧
    multiStepImages [(⟨[10, 11, 12], [1, 1, 1]⟩ : DataSet Nat), ⟨[20, 21, 22], [1, 1, 1]⟩] d = .ok [10, 11] := by
  refine ⟨⟨[1 * 1, 1 * 1], [1, 1], [[[], []], [[], []]]⟩, rfl, rfl⟩

/-! ### C86

Full statement: the problems are those of the listed images, `∃ js, SelectedAt names.length (NoiseItem E read names) js obs`. -/

private theorem noiseStep_ok {E : ToolEnv Img} {read : String → Img} {names : List String} {s s' : Option Img × List (List Corr2)}
    {i : Nat} {m0 : Img} (hm : s.1 = some m0 ∨ s.1 = none ∧ ∃ name, names[i]? = some name ∧ read name = m0)
    (h : noiseStep E read names s i = .ok s') :
    s'.1 = some m0 ∧ ((s'.2 = s.2 ∧ ¬ ∃ cs fs, E.find m0 = .ok fs ∧ fs ≠ [] ∧ E.draw m0 fs = .ok () ∧ E.create fs = .ok cs) ∨
      ∃ cs fs, E.find m0 = .ok fs ∧ fs ≠ [] ∧ E.draw m0 fs = .ok () ∧ E.create fs = .ok cs ∧ s'.2 = s.2 ++ [cs]) := by
  unfold noiseStep at h
  rw [Res.bind_ok_iff] at h
  obtain ⟨name, hn, h⟩ := h
  rw [collectIdx_ok_iff] at hn
  have himg : s.1.getD (read name) = m0 := by
    rcases hm with hm | ⟨hm, name', hn', hr⟩
    · rw [hm]; rfl
    · rw [hm]; rw [hn] at hn'; cases hn'; exact hr
  simp only [himg] at h
  cases hf : E.find m0 with
  | ok fs =>
    rw [hf, Res.ok_bind] at h
    by_cases hemp : fs.isEmpty = true
    · rw [if_pos hemp] at h
      simp only [Exc.isRuntime, if_true] at h
      cases h
      refine ⟨rfl, Or.inl ⟨rfl, ?_⟩⟩
      rintro ⟨cs, fs', hf', hne, -⟩
      cases hf'
      exact hne (by simpa using hemp)
    · rw [if_neg hemp] at h
      cases hd : E.draw m0 fs with
      | ok u =>
        rw [hd, Res.ok_bind] at h
        simp only at h
        rw [Res.bind_ok_iff] at h
        obtain ⟨cs, hc, h⟩ := h
        cases h
        exact ⟨rfl, Or.inr ⟨cs, fs, rfl, by simpa using hemp, hd, hc, rfl⟩⟩
      | throw e =>
        rw [hd, Res.throw_bind] at h
        simp only at h
        split_ifs at h
        cases h
        refine ⟨rfl, Or.inl ⟨rfl, ?_⟩⟩
        rintro ⟨cs, fs', hf', -, hd', -⟩
        cases hf'
        rw [hd] at hd'; cases hd'
      | abort => rw [hd] at h; cases h
      | ub => rw [hd] at h; cases h
  | throw e =>
    rw [hf, Res.throw_bind] at h
    simp only at h
    split_ifs at h
    cases h
    refine ⟨rfl, Or.inl ⟨rfl, ?_⟩⟩
    rintro ⟨cs, fs', hf', -⟩
    cases hf'
  | abort => rw [hf] at h; cases h
  | ub => rw [hf] at h; cases h

/-- What the tool really builds: as many copies of the first image's problem as there are images, or nothing. -/
theorem noise_ok (E : ToolEnv Img) (read : String → Img) (name0 : String) (names : List String) (obs : List (List Corr2))
    (h : noiseCollect E read (name0 :: names) = .ok obs) :
    (obs = [] ∧ ¬ ∃ cs, NoiseItem E read (name0 :: names) 0 cs) ∨
      ∃ cs, NoiseItem E read (name0 :: names) 0 cs ∧ obs = List.replicate (name0 :: names).length cs := by
  unfold noiseCollect at h
  rw [Res.bind_ok_iff] at h
  obtain ⟨s, h, hs⟩ := h
  cases hs
  have key : ∀ k s, k ≤ (name0 :: names).length →
      Res.foldList (noiseStep E read (name0 :: names)) (none, []) (List.range k) = .ok s →
      (k = 0 ∧ s = (none, []) ∨ 0 < k ∧ s.1 = some (read name0)) ∧
      ((s.2 = [] ∧ ¬ ∃ cs, NoiseItem E read (name0 :: names) 0 cs) ∨ (k = 0 ∧ s.2 = []) ∨
      ∃ cs, NoiseItem E read (name0 :: names) 0 cs ∧ s.2 = List.replicate k cs) := by
    intro k
    induction k with
    | zero => intro s _ h; cases h; exact ⟨Or.inl ⟨rfl, rfl⟩, Or.inr (Or.inl ⟨rfl, rfl⟩)⟩
    | succ k ih =>
      intro s hk h
      rw [List.range_succ, Res.foldList_append, Res.bind_ok_iff] at h
      obtain ⟨s1, h1, h⟩ := h
      rw [Res.foldList_cons, Res.bind_ok_iff] at h
      obtain ⟨s2, h2, h⟩ := h
      cases h
      obtain ⟨hst, hobs⟩ := ih s1 (by omega) h1
      have hm : s1.1 = some (read name0) ∨ s1.1 = none ∧ ∃ name, (name0 :: names)[k]? = some name ∧ read name = read name0 := by
        rcases hst with ⟨hk0, hs1⟩ | ⟨-, hs1⟩
        · subst hk0; rw [hs1]; exact Or.inr ⟨rfl, name0, rfl, rfl⟩
        · exact Or.inl hs1
      obtain ⟨hs1, hcase⟩ := noiseStep_ok hm h2
      refine ⟨Or.inr ⟨by omega, hs1⟩, ?_⟩
      have hitem : ∀ cs, NoiseItem E read (name0 :: names) 0 cs ↔
          ∃ fs, E.find (read name0) = .ok fs ∧ fs ≠ [] ∧ E.draw (read name0) fs = .ok () ∧ E.create fs = .ok cs := by
        intro cs
        constructor
        · rintro ⟨name, fs, hn, hr⟩; cases hn; exact ⟨fs, hr⟩
        · rintro ⟨fs, hr⟩; exact ⟨name0, fs, rfl, hr⟩
      rcases hcase with ⟨hs2, hno⟩ | ⟨cs, fs, hf, hne, hd, hc, hs2⟩
      · left
        have hno' : ¬ ∃ cs, NoiseItem E read (name0 :: names) 0 cs := fun ⟨cs, hcs⟩ => hno ⟨cs, (hitem cs).1 hcs⟩
        refine ⟨?_, hno'⟩
        rw [hs2]
        rcases hobs with h | h | ⟨cs, hcs, -⟩
        · exact h.1
        · exact h.2
        · exact absurd ⟨cs, hcs⟩ hno'
      · right; right
        have hcs : NoiseItem E read (name0 :: names) 0 cs := (hitem cs).2 ⟨fs, hf, hne, hd, hc⟩
        refine ⟨cs, hcs, ?_⟩
        rw [hs2, List.replicate_succ']
        congr 1
        rcases hobs with h | ⟨hk0, h⟩ | ⟨cs', hcs', h⟩
        · exact absurd ⟨cs, hcs⟩ h.2
        · rw [hk0, h]; rfl
        · rw [h]
          obtain ⟨fs', hf', -, -, hc'⟩ := (hitem cs').1 hcs'
          rw [hf] at hf'; cases hf'
          rw [hc] at hc'; cases hc'; rfl
  obtain ⟨-, h | h | h⟩ := key _ s (Nat.le_refl _) h
  · exact Or.inl h
  · exact absurd h.1 (by simp)
  · exact Or.inr h

theorem noiseItem_unique {E : ToolEnv Img} {read : String → Img} {names : List String} {i : Nat} {cs cs' : List Corr2}
    (h : NoiseItem E read names i cs) (h' : NoiseItem E read names i cs') : cs = cs' := by
  obtain ⟨name, fs, hn, hf, -, -, hc⟩ := h
  obtain ⟨name', fs', hn', hf', -, -, hc'⟩ := h'
  rw [hn] at hn'; cases hn'
  rw [hf] at hf'; cases hf'
  rw [hc] at hc'; cases hc'; rfl

/-- The tool violates the statement for every list in which some image gives other correspondences than the first one, or in
which the target is visible in some but not all images. -/
theorem C86_negation (E : ToolEnv Img) (read : String → Img) (names : List String) (obs : List (List Corr2))
    (h : noiseCollect E read names = .ok obs) (i j : Nat) (cs : List Corr2) (hj : j < names.length)
    (hi : NoiseItem E read names i cs) (hdiff : ¬ NoiseItem E read names j cs) :
    ¬ ∃ js, SelectedAt names.length (NoiseItem E read names) js obs := by
  rintro ⟨js, hasc, hmem, hall⟩
  cases names with
  | nil => simp at hj
  | cons name0 names =>
    have hil : i < (name0 :: names).length := by
      obtain ⟨name, fs, hn, -⟩ := hi
      exact (List.getElem?_eq_some_iff.1 hn).1
    have hijs : i ∈ js := (hmem i).2 ⟨hil, cs, hi⟩
    have hlen := hall.length_eq
    rcases noise_ok E read name0 names obs h with ⟨rfl, -⟩ | ⟨cs0, h0, rfl⟩
    · rw [List.length_nil] at hlen
      rw [List.length_eq_zero_iff.1 hlen] at hijs
      simp at hijs
    · -- all copies are of the first image
      have hcopy : ∀ x ∈ js, NoiseItem E read (name0 :: names) x cs0 := by
        intro x hx
        obtain ⟨k, hk, hkx⟩ := List.mem_iff_getElem.1 hx
        have := (List.forall₂_iff_get.1 hall).2 k hk (by rw [← hlen]; exact hk)
        simp only [List.get_eq_getElem, List.getElem_replicate] at this
        rwa [hkx] at this
      have hcs : cs = cs0 := noiseItem_unique hi (hcopy i hijs)
      subst hcs
      have hjmem : j ∉ js := fun hjm => hdiff (hcopy j hjm)
      -- js is as long as the list of names but misses j
      have hnd : js.Nodup := hasc.imp fun h => Nat.ne_of_lt h
      have hsub : js ⊆ (List.range (name0 :: names).length).erase j := by
        intro x hx
        rw [List.Nodup.mem_erase_iff List.nodup_range]
        exact ⟨fun hxj => hjmem (hxj ▸ hx), List.mem_range.2 ((hmem x).1 hx).1⟩
      have hle := (hnd.subperm hsub).length_le
      rw [List.length_erase_of_mem (List.mem_range.2 hj), List.length_range] at hle
      rw [List.length_replicate] at hlen
      omega

/-- Proved part of C86: if all listed files hold the same image (a still scene without any noise), the problems are right. -/
theorem C86_partial (E : ToolEnv Img) (read : String → Img) (names : List String) (obs : List (List Corr2))
    (h : noiseCollect E read names = .ok obs) (m : Img) (hsame : ∀ name ∈ names, read name = m) :
    ∃ js, SelectedAt names.length (NoiseItem E read names) js obs := by
  cases names with
  | nil => cases h; exact ⟨[], SelectedAt.nil _⟩
  | cons name0 names =>
    have hall : ∀ i, i < (name0 :: names).length → ∀ cs, NoiseItem E read (name0 :: names) i cs ↔ NoiseItem E read (name0 :: names) 0 cs := by
      intro i hi cs
      have h1 : (name0 :: names)[i]? = some (name0 :: names)[i] := List.getElem?_eq_getElem hi
      have h2 := hsame _ (List.getElem_mem hi)
      have h3 := hsame name0 (by simp)
      constructor
      · rintro ⟨name, fs, hn, hr⟩
        rw [h1] at hn; cases hn
        rw [h2] at hr
        exact ⟨name0, fs, rfl, by rw [h3]; exact hr⟩
      · rintro ⟨name, fs, hn, hr⟩
        cases hn
        rw [h3] at hr
        exact ⟨_, fs, h1, by rw [h2]; exact hr⟩
    rcases noise_ok E read name0 names obs h with ⟨rfl, hno⟩ | ⟨cs0, h0, rfl⟩
    · refine ⟨[], .nil, fun j => ?_, .nil⟩
      simp only [List.not_mem_nil, false_iff, not_and]
      rintro hj ⟨cs, hcs⟩
      exact hno ⟨cs, (hall j hj cs).1 hcs⟩
    · refine ⟨List.range (name0 :: names).length, List.pairwise_lt_range, fun j => ?_, ?_⟩
      · rw [List.mem_range]
        exact ⟨fun hj => ⟨hj, cs0, (hall j hj cs0).2 h0⟩, fun hj => hj.1⟩
      · rw [List.forall₂_iff_get]
        refine ⟨by simp, fun i hi _ => ?_⟩
        simp only [List.length_range] at hi
        simp only [List.get_eq_getElem, List.getElem_range, List.getElem_replicate]
        exact (hall i hi cs0).2 h0

/-- Two different images, both recognised: two copies of the first image's correspondences. -/
example : noiseCollect
    { find := fun m => .ok [(0, [⟨m, 0⟩])],
      create := fun fs => .ok (fs.flatMap fun f => f.2.map fun p => (⟨p, ⟨0, 0, 0⟩⟩ : Corr2)),
      draw := fun _ _ => .ok (), check := fun _ _ => .ok () } (fun name : String => if name = "a" then (1 : ℝ) else 2) ["a", "b"] =
    .ok [[⟨⟨1, 0⟩, ⟨0, 0, 0⟩⟩], [⟨⟨1, 0⟩, ⟨0, 0, 0⟩⟩]] := by
  simp [noiseCollect, noiseStep, Res.foldList, Res.idxList, Res.bind, List.range, List.range.loop]

end RCT
