import Verif.Lemmas.Collect
import Verif.Props.Accuracy

/-!
# C104, C105, C109, C110: data used by the validation tool, the multi camera tool and the intrinsic calibration tool
-/

namespace RCT

open Spec

variable {Img : Type}

theorem foldl_snoc {A : Type} (as acc : List A) : as.foldl (fun acc e => acc ++ [e]) acc = acc ++ as := by
  induction as generalizing acc with
  | nil => simp
  | cons a as ih => rw [List.foldl_cons, ih]; simp

/-! ### C104 -/

private theorem validationStep_ok {E : ToolEnv Img} {d : DataSet Img} {s s' : List (Obs Corr2)} {i : Nat}
    (h : validationStep E d s i = .ok s') :
    (s' = s ∧ ¬ ∃ o, ValidationItem E d i o) ∨ ∃ o, ValidationItem E d i o ∧ s' = s ++ [o] := by
  unfold validationStep at h
  rw [Res.bind_ok_iff] at h
  obtain ⟨m, hm, h⟩ := h
  rw [collectIdx_ok_iff] at hm
  cases hf : E.find m with
  | ok fs =>
    rw [hf, Res.ok_bind] at h
    by_cases hemp : fs.isEmpty = true
    · rw [if_pos hemp] at h
      simp only [Exc.isRuntime, if_true] at h
      cases h
      refine Or.inl ⟨rfl, ?_⟩
      rintro ⟨o, m', fs', hm', hf', hne, -⟩
      rw [hm] at hm'; cases hm'
      rw [hf] at hf'; cases hf'
      exact hne (by simpa using hemp)
    · rw [if_neg hemp] at h
      cases hd : E.draw m fs with
      | ok u =>
        rw [hd, Res.ok_bind] at h
        simp only at h
        rw [Res.bind_ok_iff] at h
        obtain ⟨T, hT, h⟩ := h
        rw [Res.bind_ok_iff] at h
        obtain ⟨cs, hc, h⟩ := h
        cases h
        rw [collectIdx_ok_iff] at hT
        exact Or.inr ⟨wristObs T cs, ⟨m, fs, hm, hf, by simpa using hemp, hd, hc, hT, rfl⟩, rfl⟩
      | throw e =>
        rw [hd, Res.throw_bind] at h
        simp only at h
        split_ifs at h
        cases h
        refine Or.inl ⟨rfl, ?_⟩
        rintro ⟨o, m', fs', hm', hf', hne, hd', -⟩
        rw [hm] at hm'; cases hm'
        rw [hf] at hf'; cases hf'
        rw [hd] at hd'; cases hd'
      | abort => rw [hd] at h; cases h
      | ub => rw [hd] at h; cases h
  | throw e =>
    rw [hf, Res.throw_bind] at h
    simp only at h
    split_ifs at h
    cases h
    refine Or.inl ⟨rfl, ?_⟩
    rintro ⟨o, m', fs', hm', hf', -⟩
    rw [hm] at hm'; cases hm'
    rw [hf] at hf'; cases hf'
  | abort => rw [hf] at h; cases h
  | ub => rw [hf] at h; cases h

/-- The observations of the validation tool are those of the usable images, in order, each with the pose of its image. -/
theorem C104_observations_partial (E : ToolEnv Img) (d : DataSet Img) (obs : List (Obs Corr2)) (h : validationCollect E d = .ok obs) :
    ∃ js, SelectedAt d.images.length (ValidationItem E d) js obs := by
  unfold validationCollect at h
  obtain ⟨js, as, hs, rfl⟩ := fold_collect (P := ValidationItem E d) (add := fun acc e => acc ++ [e])
    (fun s i s' _ => validationStep_ok) h
  exact ⟨js, by rw [foldl_snoc]; exact hs⟩

/-- The verdict on a data set with at least one usable image: whenever the tool ends without error, the virtual targets of
all usable images were compared, and the calibration is called valid exactly if mean plus two standard deviations are within
both tolerances. Missing with respect to C104: no usable image (see `C104_negation`). -/
theorem C104_partial (E : ToolEnv Img) (c : Ceres V3) (intr : Intr) (cam tgt : Iso) (d : DataSet Img) (hcam : RigidMotion cam)
    (hrig : ∀ T ∈ d.poses, RigidMotion T) (hlen : d.images.length < 2 ^ 64) (b : Bool)
    (husable : ∃ i o, ValidationItem E d i o) (h : validationTool E c intr cam tgt d = .ok b) :
    ∃ js obs evals, SelectedAt d.images.length (ValidationItem E d) js obs ∧
      List.Forall₂ (fun o e => ∃ G, IsGuess cam tgt 1 o G ∧ virtualTargetDiff c o.corrs intr G 1 = .ok e) obs evals ∧
      ∃ pm ps am as, MeanStdev (evals.map (·.positionalError)) pm ps ∧ MeanStdev (evals.map (·.angularError)) am as ∧
        (b = true ↔ pm + 2 * ps ≤ 0.001 ∧ am + 2 * as ≤ 0.05 * Real.pi / 180) := by
  unfold validationTool at h
  rw [Res.bind_ok_iff] at h
  obtain ⟨obs, ho, h⟩ := h
  rw [Res.bind_ok_iff] at h
  obtain ⟨r, hr, h⟩ := h
  obtain ⟨js, hs⟩ := C104_observations_partial E d obs ho
  have hlenobs : obs.length ≤ d.images.length := by
    have h1 := hs.2.2.length_eq
    have h2 : js.Nodup := hs.1.imp fun h => Nat.ne_of_lt h
    have h3 : js ⊆ List.range d.images.length := fun j hj => List.mem_range.2 ((hs.2.1 j).1 hj).1
    have h4 := (h2.subperm h3).length_le
    rw [List.length_range] at h4
    omega
  have hne : obs ≠ [] := by
    obtain ⟨i, o, hi⟩ := husable
    have hil : i < d.images.length := by
      obtain ⟨m, fs, hm, -⟩ := hi
      exact (List.getElem?_eq_some_iff.1 hm).1
    have hij : i ∈ js := (hs.2.1 i).2 ⟨hil, o, hi⟩
    intro hnil
    have h1 := hs.2.2.length_eq
    rw [hnil, List.length_nil] at h1
    rw [List.length_eq_zero_iff.1 h1] at hij
    simp at hij
  have hrigobs : ∀ o ∈ obs, o.toCameraMount.IsRigid := by
    intro o ho'
    obtain ⟨k, hk, hko⟩ := List.mem_iff_getElem.1 ho'
    have hl := hs.2.2.length_eq
    have := (List.forall₂_iff_get.1 hs.2.2).2 k (by omega) hk
    simp only [List.get_eq_getElem, hko] at this
    obtain ⟨m, fs, -, -, -, -, -, hp, -⟩ := this
    exact (rigid_iff _).2 (hrig _ (List.mem_of_getElem? hp))
  obtain ⟨hbad, hgood⟩ := C58_partial c obs intr cam tgt 1 1 hne (by omega) ((rigid_iff cam).2 hcam) hrigobs
  by_cases hsz : SizesAgree obs
  swap
  · rw [hbad hsz] at hr; cases hr
  obtain ⟨evals, hev, ⟨pm, ps, hpm, hps, hpms⟩, am, as, ham, has, hams⟩ := (hgood hsz r).1 hr
  refine ⟨js, obs, evals, hs, hev, pm, ps, am, as, hpms, hams, ?_⟩
  cases h
  simp only [decide_eq_true_eq]
  unfold reportedValid twoSigmaAbove
  rw [hpm, hps, ham, has]
  simp only [not_or, gt_iff_lt, not_lt]
  norm_num

/-- Full C104 fails: if the loop ends without a usable image, nothing is reported; the first element of an empty vector is
read. -/
theorem C104_negation (E : ToolEnv Img) (c : Ceres V3) (intr : Intr) (cam tgt : Iso) (d : DataSet Img) (obs : List (Obs Corr2))
    (h : validationCollect E d = .ok obs) (hno : ¬ ∃ i o, ValidationItem E d i o) :
    validationTool E c intr cam tgt d = .ub := by
  obtain ⟨js, hs⟩ := C104_observations_partial E d obs h
  have hjs : js = [] := by
    apply List.eq_nil_iff_forall_not_mem.2
    intro j hj
    obtain ⟨-, o, ho⟩ := (hs.2.1 j).1 hj
    exact hno ⟨j, o, ho⟩
  have hobs : obs = [] := by
    have := hs.2.2.length_eq
    rw [hjs] at this
    exact List.length_eq_zero_iff.1 this.symm
  unfold validationTool
  rw [h, Res.ok_bind, hobs, C58_negation]
  rfl

/-- A data set with one image in which nothing is found: the loop ends, nothing is usable. -/
example : validationCollect (Img := Nat)
    { find := fun _ => .throw .runtimeError, create := fun _ => .ok [],
      draw := fun _ _ => .ok (), check := fun _ _ => .ok () } ⟨[7], [1]⟩ = .ok [] := rfl

/-- One image with two features seen where they are expected: the tool reports a verdict. -/
example : ∃ b, validationTool (Img := Nat)
    { find := fun _ => .ok [(0, [⟨0, 0⟩])], create := fun _ => .ok [⟨⟨0, 0⟩, ⟨0, 0, 1⟩⟩, ⟨⟨0, 0⟩, ⟨0, 0, 1⟩⟩],
      draw := fun _ _ => .ok (), check := fun _ _ => .ok () } (idCeres V3) ⟨1, 1, 0, 0⟩ 1 1 ⟨[7], [1]⟩ = .ok b := by
  obtain ⟨r, hr⟩ := virtualTargetDiff_example
  have h1 : validationCollect (Img := Nat)
    { find := fun _ => .ok [(0, [⟨0, 0⟩])], create := fun _ => .ok [⟨⟨0, 0⟩, ⟨0, 0, 1⟩⟩, ⟨⟨0, 0⟩, ⟨0, 0, 1⟩⟩],
      draw := fun _ _ => .ok (), check := fun _ _ => .ok () } ⟨[7], [1]⟩ =
      .ok [wristObs 1 [⟨⟨0, 0⟩, ⟨0, 0, 1⟩⟩, ⟨⟨0, 0⟩, ⟨0, 0, 1⟩⟩]] := rfl
  have h2 : sizeCheck [wristObs 1 [⟨⟨0, 0⟩, ⟨0, 0, 1⟩⟩, ⟨⟨0, 0⟩, ⟨0, 0, 1⟩⟩]] = .ok () := by
    simp [sizeCheck, szSub]
  unfold validationTool intrinsicAccuracy
  rw [h1, Res.ok_bind, h2, Res.ok_bind]
  simp only [wristObs, Iso.one_mul, Iso.mul_one, Iso.inv_one, Res.mapList, hr, Res.ok_bind]
  exact ⟨_, rfl⟩

/-! ### C105 -/

private theorem found_iff {s : CorrDataSet} (hp : ProperFlags s) {c i : Nat} (hc : c < s.rows) (hi : i < s.cols) :
    s.found c i = true ↔ s.mask c i = 1 := by
  unfold CorrDataSet.found
  rcases hp c i hc hi with h | h <;> simp [h]

private theorem foldl_pair (as : List (Iso × List Corr2)) (acc : List Iso × List (List Corr2)) :
    as.foldl (fun (acc : List Iso × List (List Corr2)) e => (acc.1 ++ [e.1], acc.2 ++ [e.2])) acc =
      (acc.1 ++ as.map Prod.fst, acc.2 ++ as.map Prod.snd) := by
  induction as generalizing acc with
  | nil => simp
  | cons a as ih => rw [List.foldl_cons, ih]; simp

/-- For every camera: exactly the images in which it saw the target, in order, with the pose of that image from the data set
of this camera. -/
theorem C105_pairs (s : CorrDataSet) (hp : ProperFlags s) (sets : List (DataSet Img)) (out : List (List Iso × List (List Corr2)))
    (h : multiStaticBuild s sets = .ok out) :
    out.length = s.rows ∧ ∀ c, c < s.rows → ∃ ds js items, sets[c]? = some ds ∧
      SelectedAt s.cols (CameraItem s ds c) js items ∧ out[c]? = some (items.map Prod.fst, items.map Prod.snd) := by
  unfold multiStaticBuild at h
  have hl := Res.mapList_ok_length h
  rw [Res.mapList_ok_iff, List.forall₂_iff_get] at h
  rw [List.length_range] at hl
  refine ⟨hl, fun c hc => ?_⟩
  have hco := h.2 c (by simpa using hc) (by omega)
  simp only [List.get_eq_getElem, List.getElem_range] at hco
  rw [Res.bind_ok_iff] at hco
  obtain ⟨ds, hds, hco⟩ := hco
  rw [collectIdx_ok_iff] at hds
  unfold multiStaticCamera at hco
  obtain ⟨js, as, hs, heq⟩ := fold_collect (P := CameraItem s ds c)
    (add := fun (acc : List Iso × List (List Corr2)) e => (acc.1 ++ [e.1], acc.2 ++ [e.2])) (by
      intro acc i acc' hi hstep
      split_ifs at hstep with hf
      · right
        rw [found_iff hp hc hi] at hf
        rw [Res.bind_ok_iff] at hstep
        obtain ⟨T, hT, hstep⟩ := hstep
        cases hstep
        exact ⟨(T, s.corr c i), ⟨hf, (collectIdx_ok_iff _ _ _).1 hT, rfl⟩, rfl⟩
      · left
        rw [found_iff hp hc hi] at hf
        cases hstep
        exact ⟨rfl, fun ⟨e, he⟩ => hf he.1⟩) hco
  refine ⟨ds, js, as, hds, hs, ?_⟩
  rw [List.getElem?_eq_getElem (by omega), heq, foldl_pair]
  simp

/-- The problem is built if every camera has a pose for every image. -/
theorem C105_returns (s : CorrDataSet) (sets : List (DataSet Img)) (hrows : s.rows ≤ sets.length)
    (hposes : ∀ ds ∈ sets, s.cols ≤ ds.poses.length) : ∃ out, multiStaticBuild s sets = .ok out := by
  have hcam : ∀ c (hc : c < sets.length), ∃ o, multiStaticCamera s c sets[c] = .ok o := by
    intro c hc
    unfold multiStaticCamera
    refine fold_returns (fun acc i hi => ?_) _
    split_ifs
    · have := hposes sets[c] (List.getElem_mem _)
      rw [collectIdx_lt (by omega : i < sets[c].poses.length), Res.ok_bind]
      exact ⟨_, rfl⟩
    · exact ⟨_, rfl⟩
  unfold multiStaticBuild
  have : ∀ l : List Nat, (∀ c ∈ l, c < s.rows) → ∃ out, Res.mapList (fun (c : Nat) =>
      (Res.idxList sets c).bind fun ds => multiStaticCamera s c ds) l = .ok out := by
    intro l
    induction l with
    | nil => intro _; exact ⟨[], rfl⟩
    | cons c l ih =>
      intro hl
      obtain ⟨out, ho⟩ := ih fun x hx => hl x (by simp [hx])
      have hc : c < sets.length := by have := hl c (by simp); omega
      obtain ⟨o, hoc⟩ := hcam c hc
      refine ⟨o :: out, ?_⟩
      rw [Res.mapList_ok_iff] at ho ⊢
      exact .cons (by rw [collectIdx_lt hc, Res.ok_bind, hoc]) ho
  exact this _ fun c hc => List.mem_range.1 hc

/-- Two cameras, the second one misses the first image. -/
example : multiStaticBuild ⟨2, 2, fun c i => if c = 1 ∧ i = 0 then 0 else 1, fun _ _ => []⟩
    [(⟨[10, 11], [1, 1]⟩ : DataSet Nat), ⟨[20, 21], [1, 1]⟩] = .ok [([1, 1], [[], []]), ([1], [[]])] := rfl

/-! ### C109 -/

/-- For every image: the cameras compared are exactly those that saw the target in it (ascending), with their own
correspondences, the image drawn on is image `i` of the first of them, and the image is shown exactly if there are two or
more. -/
theorem C109_view (s : CorrDataSet) (hp : ProperFlags s) (sets : List (DataSet Img)) (i : Nat) (hi : i < s.cols)
    (r : Option (List (Nat × List Corr2) × Img)) (h : multiStaticShow s sets s.rows i = .ok r) :
    ∃ cs : List Nat, cs.Pairwise (· < ·) ∧ (∀ c, c ∈ cs ↔ c < s.rows ∧ s.mask c i = 1) ∧
      (cs.length < 2 → r = none) ∧
      (2 ≤ cs.length → ∃ c ds m, cs.head? = some c ∧ sets[c]? = some ds ∧ ds.images[i]? = some m ∧
        r = some (cs.map fun c => (c, s.corr c i), m)) := by
  unfold multiStaticShow at h
  rw [Res.bind_ok_iff] at h
  obtain ⟨acc, hacc, h⟩ := h
  have key : ∀ k acc, k ≤ s.rows → Res.foldList (fun (acc : List (Nat × List Corr2) × Option Img) c =>
      if s.found c i then
        (match acc.2 with
          | some m => .ok (some m)
          | none => (Res.idxList sets c).bind fun ds => (Res.idxList ds.images i).bind fun m => .ok (some m) : Res (Option Img)).bind
          fun image => .ok (acc.1 ++ [(c, s.corr c i)], image)
      else .ok acc) (([], none) : List (Nat × List Corr2) × Option Img) (List.range k) = .ok acc →
      ∃ cs : List Nat, cs.Pairwise (· < ·) ∧ (∀ c, c ∈ cs ↔ c < k ∧ s.mask c i = 1) ∧ acc.1 = cs.map (fun c => (c, s.corr c i)) ∧
        (cs = [] ∧ acc.2 = none ∨ ∃ c ds m, cs.head? = some c ∧ sets[c]? = some ds ∧ ds.images[i]? = some m ∧ acc.2 = some m) := by
    intro k
    induction k with
    | zero => intro acc _ h; cases h; exact ⟨[], .nil, by simp, rfl, Or.inl ⟨rfl, rfl⟩⟩
    | succ k ih =>
      intro acc hk h
      rw [List.range_succ, Res.foldList_append, Res.bind_ok_iff] at h
      obtain ⟨a1, h1, h⟩ := h
      rw [Res.foldList_cons, Res.bind_ok_iff] at h
      obtain ⟨a2, h2, h⟩ := h
      cases h
      obtain ⟨cs, hasc, hmem, hmap, himg⟩ := ih a1 (by omega) h1
      split_ifs at h2 with hf
      · rw [found_iff hp (by omega) hi] at hf
        rw [Res.bind_ok_iff] at h2
        obtain ⟨im, him, h2⟩ := h2
        cases h2
        refine ⟨cs ++ [k], ?_, ?_, by rw [hmap]; simp, ?_⟩
        · rw [List.pairwise_append]
          refine ⟨hasc, by simp, fun x hx y hy => ?_⟩
          rw [List.mem_singleton.1 hy]
          exact ((hmem x).1 hx).1
        · intro c
          rw [List.mem_append, List.mem_singleton, hmem]
          constructor
          · rintro (⟨h1, h2⟩ | rfl)
            · exact ⟨by omega, h2⟩
            · exact ⟨by omega, hf⟩
          · rintro ⟨h1, h2⟩
            by_cases hck : c = k
            · exact Or.inr hck
            · exact Or.inl ⟨by omega, h2⟩
        · right
          rcases himg with ⟨rfl, hn⟩ | ⟨c, ds, m, hc, hds, hm, ha⟩
          · rw [hn] at him
            simp only at him
            rw [Res.bind_ok_iff] at him
            obtain ⟨ds, hds, him⟩ := him
            rw [Res.bind_ok_iff] at him
            obtain ⟨m, hm, him⟩ := him
            cases him
            exact ⟨k, ds, m, rfl, (collectIdx_ok_iff _ _ _).1 hds, (collectIdx_ok_iff _ _ _).1 hm, rfl⟩
          · rw [ha] at him
            cases him
            refine ⟨c, ds, m, ?_, hds, hm, rfl⟩
            cases cs with
            | nil => cases hc
            | cons x cs => exact hc
      · rw [found_iff hp (by omega) hi] at hf
        cases h2
        refine ⟨cs, hasc, fun c => ?_, hmap, himg⟩
        rw [hmem]
        constructor
        · rintro ⟨h1, h2⟩; exact ⟨by omega, h2⟩
        · rintro ⟨h1, h2⟩
          by_cases hck : c = k
          · subst hck; exact absurd h2 hf
          · exact ⟨by omega, h2⟩
  obtain ⟨cs, hasc, hmem, hmap, himg⟩ := key s.rows acc (Nat.le_refl _) hacc
  refine ⟨cs, hasc, hmem, ?_, ?_⟩
  · intro hlt
    rcases himg with ⟨rfl, hn⟩ | ⟨c, ds, m, hc, hds, hm, ha⟩
    · rw [hn] at h; cases h; rfl
    · rw [ha] at h
      simp only at h
      rw [if_neg (by rw [hmap, List.length_map]; omega)] at h
      cases h; rfl
  · intro hge
    rcases himg with ⟨rfl, hn⟩ | ⟨c, ds, m, hc, hds, hm, ha⟩
    · simp at hge
    · rw [ha] at h
      simp only at h
      rw [if_pos (by rw [hmap, List.length_map]; omega)] at h
      cases h
      exact ⟨c, ds, m, hc, hds, hm, by rw [hmap]⟩

/-- Three cameras, the first one did not see the target: cameras 1 and 2 are compared on the image of camera 1. -/
example : multiStaticShow ⟨3, 1, fun c _ => if c = 0 then 0 else 1, fun _ _ => []⟩
    [(⟨[10], [1]⟩ : DataSet Nat), ⟨[20], [1]⟩, ⟨[30], [1]⟩] 3 0 = .ok (some ([(1, []), (2, [])], 20)) := rfl

/-! ### C110 -/

private theorem intrinsicStep_ok {E : ToolEnv Img} {images : List Img} {s s' : List (List Corr2)} {i : Nat}
    (h : intrinsicStep E images s i = .ok s') :
    (s' = s ∧ ¬ ∃ cs, IntrinsicItem E images i cs) ∨ ∃ cs, IntrinsicItem E images i cs ∧ s' = s ++ [cs] := by
  unfold intrinsicStep at h
  rw [Res.bind_ok_iff] at h
  obtain ⟨m, hm, h⟩ := h
  rw [collectIdx_ok_iff] at hm
  cases hf : E.find m with
  | ok fs =>
    rw [hf, Res.ok_bind] at h
    by_cases hemp : fs.isEmpty = true
    · rw [if_pos hemp] at h
      simp only [Exc.isRuntime, if_true] at h
      cases h
      refine Or.inl ⟨rfl, ?_⟩
      rintro ⟨cs, m', fs', hm', hf', hne, -⟩
      rw [hm] at hm'; cases hm'
      rw [hf] at hf'; cases hf'
      exact hne (by simpa using hemp)
    · rw [if_neg hemp] at h
      cases hc : E.create fs with
      | ok cs =>
        rw [hc, Res.ok_bind] at h
        simp only at h
        rw [Res.bind_ok_iff] at h
        obtain ⟨u, -, h⟩ := h
        cases h
        exact Or.inr ⟨cs, ⟨m, fs, hm, hf, by simpa using hemp, hc⟩, rfl⟩
      | throw e =>
        rw [hc, Res.throw_bind] at h
        simp only at h
        split_ifs at h
        cases h
        refine Or.inl ⟨rfl, ?_⟩
        rintro ⟨cs, m', fs', hm', hf', hne, hc'⟩
        rw [hm] at hm'; cases hm'
        rw [hf] at hf'; cases hf'
        rw [hc] at hc'; cases hc'
      | abort => rw [hc] at h; cases h
      | ub => rw [hc] at h; cases h
  | throw e =>
    rw [hf, Res.throw_bind] at h
    simp only at h
    split_ifs at h
    cases h
    refine Or.inl ⟨rfl, ?_⟩
    rintro ⟨cs, m', fs', hm', hf', -⟩
    rw [hm] at hm'; cases hm'
    rw [hf] at hf'; cases hf'
  | abort => rw [hf] at h; cases h
  | ub => rw [hf] at h; cases h

/-- The correspondences passed on are those of exactly the usable images, in order, and the image size is that of the first
image. Missing with respect to C110: the empty data set (see `C110_negation`). -/
theorem C110_partial (E : ToolEnv Img) (d : DataSet Img) (out : List (List Corr2) × Img) (h : intrinsicCollect E d = .ok out) :
    (∃ js, SelectedAt d.images.length (IntrinsicItem E d.images) js out.1) ∧ d.images.head? = some out.2 := by
  unfold intrinsicCollect at h
  rw [Res.bind_ok_iff] at h
  obtain ⟨obs, ho, h⟩ := h
  rw [Res.bind_ok_iff] at h
  obtain ⟨m, hm, h⟩ := h
  cases h
  obtain ⟨js, as, hs, heq⟩ := fold_collect (P := IntrinsicItem E d.images) (add := fun acc e => acc ++ [e])
    (fun s i s' _ => intrinsicStep_ok) ho
  rw [foldl_snoc] at heq
  refine ⟨⟨js, by simp only; rw [heq]; exact hs⟩, ?_⟩
  rw [collectIdx_ok_iff] at hm
  rw [List.head?_eq_getElem?]
  exact hm

/-- It returns for every data set with an image if failures are reported by `std::runtime_error` and drawing works. -/
theorem C110_returns_partial (E : ToolEnv Img) (d : DataSet Img) (hne : d.images ≠ [])
    (hfind : ∀ m, ReturnsOrRuntime (E.find m)) (hcreate : ∀ fs, ReturnsOrRuntime (E.create fs))
    (hdraw : ∀ m fs, E.draw m fs = .ok ()) : ∃ out, intrinsicCollect E d = .ok out := by
  have h1 : ∃ obs, Res.foldList (intrinsicStep E d.images) [] (List.range d.images.length) = .ok obs := by
    refine fold_returns (fun s i hi => ?_) _
    unfold intrinsicStep
    rw [collectIdx_lt hi, Res.ok_bind]
    rcases hfind d.images[i] with ⟨fs, hf⟩ | ⟨e, he, hf⟩
    · rw [hf, Res.ok_bind]
      by_cases hemp : fs.isEmpty = true
      · rw [if_pos hemp]; exact ⟨_, rfl⟩
      · rw [if_neg hemp]
        rcases hcreate fs with ⟨cs, hc⟩ | ⟨e, he, hc⟩
        · rw [hc, Res.ok_bind]; simp only; rw [hdraw]; exact ⟨_, rfl⟩
        · rw [hc, Res.throw_bind]; simp only; rw [if_pos he.isRuntime]; exact ⟨_, rfl⟩
    · rw [hf, Res.throw_bind]; simp only; rw [if_pos he.isRuntime]; exact ⟨_, rfl⟩
  obtain ⟨obs, ho⟩ := h1
  unfold intrinsicCollect
  rw [ho, Res.ok_bind, collectIdx_lt (List.length_pos_of_ne_nil hne), Res.ok_bind]
  exact ⟨_, rfl⟩

/-- Full C110 fails: for the empty data set the size of a non-existing image is read. -/
theorem C110_negation (E : ToolEnv Img) (poses : List Iso) : intrinsicCollect E ⟨[], poses⟩ = .ub := rfl

/-- Three images, the second one without target. -/
example : ∃ out, intrinsicCollect (Img := Nat)
    { find := fun m => if m = 8 then .throw .runtimeError else .ok [(0, [⟨1, 2⟩])],
      create := fun _ => .ok [], draw := fun _ _ => .ok (), check := fun _ _ => .ok () } ⟨[7, 8, 9], []⟩ = .ok out ∧ out.1.length = 2 :=
  ⟨_, rfl, rfl⟩

end RCT
