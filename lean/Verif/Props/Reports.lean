import Verif.Props.Kinematic
import Verif.Props.CircleFit
import Verif.Props.StaticCameras
import Mathlib.Analysis.Calculus.Deriv.Pow
import Mathlib.Analysis.Calculus.Deriv.Add
import Mathlib.Analysis.Calculus.Deriv.Mul
import Mathlib.LinearAlgebra.Matrix.NonsingularInverse

/-! # C88, C90, C91: default labels, calibrations without data, covariance of the circle fit -/

namespace RCT

open Spec

/-! ## C88 Default labels -/

theorem split_underscore : ∀ {a b r s : List Char}, '_' ∉ a → '_' ∉ b → a ++ '_' :: r = b ++ '_' :: s → a = b ∧ r = s := by
  intro a
  induction a with
  | nil =>
    intro b r s _ hb h
    cases b with
    | nil => simpa using h
    | cons c b =>
      simp only [List.nil_append, List.cons_append, List.cons.injEq] at h
      exact absurd (by rw [h.1]; simp) hb
  | cons x a ih =>
    intro b r s ha hb h
    cases b with
    | nil =>
      simp only [List.nil_append, List.cons_append, List.cons.injEq] at h
      exact absurd (by rw [← h.1]; simp) ha
    | cons c b =>
      simp only [List.cons_append, List.cons.injEq] at h
      obtain ⟨h1, h2⟩ := ih (fun hm => ha (by simp [hm])) (fun hm => hb (by simp [hm])) h.2
      exact ⟨by rw [h.1, h1], h2⟩

theorem toString_nat_inj {a b : Nat} (h : toString a = toString b) : a = b := by
  have h' : a.repr.toList = b.repr.toList := congrArg String.toList h
  rw [Nat.toList_repr, Nat.toList_repr] at h'
  have := congrArg (fun l => Nat.ofDigitChars 10 l 0) h'
  simpa [Nat.ofDigitChars_toDigits] using this

theorem dummyLabel_inj {i j i' j' : Nat}
    (h : "block" ++ toString i ++ "_element" ++ toString j = "block" ++ toString i' ++ "_element" ++ toString j') :
    i = i' ∧ j = j' := by
  have e := congrArg String.toList h
  simp only [String.toList_append, List.append_assoc] at e
  have e' := List.append_cancel_left e
  have hel : "_element".toList = '_' :: "element".toList := by decide
  rw [hel] at e'
  simp only [List.cons_append] at e'
  have hu : ∀ n : Nat, '_' ∉ (toString n).toList := by
    intro n
    change '_' ∉ n.repr.toList
    rw [Nat.toList_repr]; exact Nat.underscore_not_in_toDigits
  obtain ⟨h1, h2⟩ := split_underscore (hu i) (hu i') e'
  have h3 := List.append_cancel_left h2
  exact ⟨toString_nat_inj (String.toList_inj.1 h1), toString_nat_inj (String.toList_inj.1 h3)⟩

theorem SMap.keys_insert {V : Type} (m : SMap Nat V) (k : Nat) (v : V) (h : (m.map Prod.fst).Nodup) :
    ((SMap.insert m k v).map Prod.fst).Nodup ∧ ∀ x, x ∈ (SMap.insert m k v).map Prod.fst ↔ x = k ∨ x ∈ m.map Prod.fst := by
  unfold SMap.insert
  split
  · rename_i hc
    have hk : k ∈ m.map Prod.fst := by simpa using hc
    have e : (m.map fun e => if e.1 = k then (k, v) else e).map Prod.fst = m.map Prod.fst := by
      rw [List.map_map]
      apply List.map_congr_left
      intro e _
      simp only [Function.comp]
      split
      · rename_i h; exact h.symm
      · rfl
    rw [e]
    refine ⟨h, fun x => ⟨Or.inr, ?_⟩⟩
    rintro (rfl | h)
    · exact hk
    · exact h
  · rename_i hc
    have hk : k ∉ m.map Prod.fst := by simpa using hc
    simp only [List.map_append, List.map_cons, List.map_nil]
    refine ⟨?_, fun x => by simp [or_comm]⟩
    rw [List.nodup_append]
    refine ⟨h, by simp, ?_⟩
    intro a ha b hb
    simp at hb; subst hb
    rintro rfl
    exact hk ha

/-- The map of default labels: only labels that carry the position of the block, and one entry per different block. -/
theorem dummyNames_spec {cs : CovSolver} {blocks : List Nat} {names : SMap Nat (List String)}
    (h : dummyNames cs blocks = .ok names) :
    (∀ b l, names.find b = some l → ∃ n size, blocks[n]? = some b ∧ l = dummyBlockNames n size) ∧
    (names.map Prod.fst).Nodup ∧ ∀ x ∈ names.map Prod.fst, x ∈ blocks := by
  have key : ∀ (l : List (Nat × Nat)) (m m' : SMap Nat (List String)),
      (∀ e ∈ l, blocks[e.2]? = some e.1) →
      Res.foldList (fun m (e : Nat × Nat) =>
        match cs.blockSize e.1 with
        | none => (.abort : Res (SMap Nat (List String)))
        | some size => .ok (SMap.insert m e.1 (dummyBlockNames e.2 size))) m l = .ok m' →
      ((∀ b l, m.find b = some l → ∃ n size, blocks[n]? = some b ∧ l = dummyBlockNames n size) ∧
        (m.map Prod.fst).Nodup ∧ ∀ x ∈ m.map Prod.fst, x ∈ blocks) →
      ((∀ b l, m'.find b = some l → ∃ n size, blocks[n]? = some b ∧ l = dummyBlockNames n size) ∧
        (m'.map Prod.fst).Nodup ∧ ∀ x ∈ m'.map Prod.fst, x ∈ blocks) := by
    intro l
    induction l with
    | nil => intro m m' _ h hm; cases h; exact hm
    | cons e l ih =>
      intro m m' hl h hm
      rw [Res.foldList_cons] at h
      cases hs : cs.blockSize e.1 with
      | none => rw [hs] at h; cases h
      | some size =>
        rw [hs] at h
        simp only [Res.ok_bind] at h
        refine ih _ _ (fun x hx => hl x (by simp [hx])) h ?_
        obtain ⟨h1, h2, h3⟩ := hm
        obtain ⟨k1, k2⟩ := SMap.keys_insert m e.1 (dummyBlockNames e.2 size) h2
        refine ⟨?_, k1, ?_⟩
        · intro b l hb
          rw [SMap.find_insert] at hb
          split at hb
          · rename_i hbe
            cases hb
            exact ⟨e.2, size, by rw [hbe]; exact hl e (by simp), rfl⟩
          · exact h1 b l hb
        · intro x hx
          rcases (k2 x).1 hx with rfl | hx
          · exact List.mem_of_getElem? (hl e (by simp))
          · exact h3 x hx
  refine key blocks.zipIdx [] names ?_ h ⟨fun b l hb => by simp [SMap.find] at hb, by simp, by simp⟩
  rintro ⟨b, n⟩ hbn
  have := List.mem_zipIdx_iff_getElem?.1 hbn
  exact this

theorem nodup_of_length_le {l k : List Nat} (hk : k.Nodup) (hsub : ∀ x ∈ k, x ∈ l) (h : l.length = k.length) : l.Nodup := by
  have h1 : k ⊆ l.dedup := fun x hx => List.mem_dedup.2 (hsub x hx)
  have h2 : k.length ≤ l.dedup.length := (List.subperm_of_subset hk h1).length_le
  have h3 : l.dedup.length ≤ l.length := (List.dedup_sublist l).length_le
  have h4 : l.dedup = l := (List.dedup_sublist l).eq_of_length (by omega)
  rw [← h4]; exact List.nodup_dedup l

theorem elements_nodup {size : Nat → Nat} {blocks : List Nat} (h : blocks.Nodup) : (Spec.elements size blocks).Nodup := by
  unfold Spec.elements
  rw [List.nodup_flatMap]
  refine ⟨fun a _ => (List.nodup_range).map fun i j h => by simpa using h, ?_⟩
  refine h.imp fun {a b} hab => ?_
  intro x hx hy
  simp only [List.mem_map] at hx hy
  obtain ⟨_, _, rfl⟩ := hx
  obtain ⟨_, _, h⟩ := hy
  exact hab (by simpa using (congrArg Prod.fst h).symm)

/-- Without given names the report covers the free parameters in the same way, and element `i` of the block at position `n` is
called `block<n>_element<i>`. -/
theorem C25_unnamed (cs : CovSolver) (blocks : List Nat) (masks : SMap Nat (List Int)) (res : CovResult) (hwf : CovWF cs masks)
    (h : computeCovarianceUnnamed cs blocks masks = .ok res) :
    ∃ (full : Nat → Nat → ℝ) (idx : List Nat), cs.matrix blocks = some full ∧ idx.Pairwise (· < ·) ∧
      (∀ k : Nat, k ∈ idx ↔ ∃ b i, (Spec.elements (fun b => (cs.blockSize b).getD 0) blocks)[k]? = some (b, i) ∧
        (i : Int) ∉ (masks.find b).getD []) ∧
      res.covariance_matrix.rows = idx.length ∧ res.covariance_matrix.cols = idx.length ∧
      (∀ r c kr kc : Nat, idx[r]? = some kr → idx[c]? = some kc → res.covariance_matrix.val r c = full kr kc) ∧
      res.standard_deviations.length = idx.length ∧
      ∀ r k : Nat, idx[r]? = some k → ∃ b i n : Nat,
        (Spec.elements (fun b => (cs.blockSize b).getD 0) blocks)[k]? = some (b, i) ∧ blocks[n]? = some b ∧
        res.standard_deviations[r]? = some ⟨"block" ++ toString n ++ "_element" ++ toString i, "", res.correlation_matrix.val r r⟩ := by
  unfold computeCovarianceUnnamed at h
  rw [Res.bind_ok_iff] at h
  obtain ⟨names, hn, h⟩ := h
  obtain ⟨full, idx, h1, h2, h3, h4, h5, h6, h7, h8⟩ := C25_free_parameters _ _ _ _ _ hwf h
  refine ⟨full, idx, h1, h2, h3, h4, h5, h6, h7, fun r k hr => ?_⟩
  obtain ⟨b, i, l, s, e1, e2, e3, e4⟩ := h8 r k hr
  obtain ⟨n, size, hb, rfl⟩ := (dummyNames_spec hn).1 b l e2
  refine ⟨b, i, n, e1, hb, ?_⟩
  unfold dummyBlockNames at e3
  rw [List.getElem?_map, Option.map_eq_some_iff] at e3
  obtain ⟨y, hy, rfl⟩ := e3
  have : y = i := by simpa using (List.getElem?_eq_some_iff.1 hy).2.symm
  rw [e4, this]

/-- Without given names, no two entries of the report have the same name. -/
theorem C88_unique (cs : CovSolver) (blocks : List Nat) (masks : SMap Nat (List Int)) (res : CovResult)
    (hwf : CovWF cs masks) (h : computeCovarianceUnnamed cs blocks masks = .ok res) :
    (res.standard_deviations.map fun sd => sd.first).Nodup := by
  unfold computeCovarianceUnnamed at h
  rw [Res.bind_ok_iff] at h
  obtain ⟨names, hn, h⟩ := h
  obtain ⟨n1, n2, n3⟩ := dummyNames_spec hn
  have hsz : blocks.length = (names.map Prod.fst).length := by
    rw [List.length_map]; exact (C26_returns _ _ _ _ _ h).1.symm
  have hnd : blocks.Nodup := nodup_of_length_le n2 n3 hsz
  obtain ⟨full, idx, -, hsort, -, -, -, -, hlen, hlab⟩ := C25_free_parameters _ _ _ _ _ hwf h
  have hE := elements_nodup (size := fun b => (cs.blockSize b).getD 0) hnd
  rw [List.nodup_iff_injective_getElem]
  rintro ⟨i, hi⟩ ⟨j, hj⟩ hij
  simp only [List.length_map] at hi hj
  simp only [List.getElem_map] at hij
  obtain ⟨b, x, l, s, e1, e2, e3, e4⟩ := hlab i (idx[i]'(by omega)) (by simp)
  obtain ⟨b', x', l', s', e1', e2', e3', e4'⟩ := hlab j (idx[j]'(by omega)) (by simp)
  have hs : s = s' := by
    rw [(List.getElem?_eq_some_iff.1 e4).2, (List.getElem?_eq_some_iff.1 e4').2] at hij
    exact hij
  obtain ⟨n, sz, hb, rfl⟩ := n1 b l e2
  obtain ⟨n', sz', hb', rfl⟩ := n1 b' l' e2'
  unfold dummyBlockNames at e3 e3'
  rw [List.getElem?_map, Option.map_eq_some_iff] at e3 e3'
  obtain ⟨y, hy, hys⟩ := e3
  obtain ⟨y', hy', hys'⟩ := e3'
  have hxy : y = x := by
    have := (List.getElem?_eq_some_iff.1 hy).2
    simpa using this.symm
  have hxy' : y' = x' := by
    have := (List.getElem?_eq_some_iff.1 hy').2
    simpa using this.symm
  obtain ⟨q1, q2⟩ := dummyLabel_inj (hys.trans (hs.trans hys'.symm))
  have hbb : b = b' := by rw [q1, hb'] at hb; exact (Option.some.inj hb).symm
  have hxx : x = x' := by rw [← hxy, ← hxy', q2]
  rw [← hbb, ← hxx] at e1'
  have hk := (List.getElem?_inj (List.getElem?_eq_some_iff.1 e1).1 hE).1 (e1.trans e1'.symm)
  have hidx : idx.Nodup := hsort.imp fun h => Nat.ne_of_lt h
  exact Fin.ext ((List.Nodup.getElem_inj_iff hidx).1 hk)

/-- Non-vacuity: two blocks of two parameters. -/
example : ∃ res, computeCovarianceUnnamed
    ⟨fun _ => some 2, fun _ => .ok true, fun _ => some fun _ _ => 1⟩ [7, 5] [] = .ok res ∧
    CovWF ⟨fun _ => some 2, fun _ => .ok true, fun _ => some fun _ _ => 1⟩ [] := by
  have hn : dummyNames ⟨fun _ => some 2, fun _ => .ok true, fun _ => some fun _ _ => 1⟩ [7, 5] =
      .ok [(7, dummyBlockNames 0 2), (5, dummyBlockNames 1 2)] := by
    generalize h0 : dummyBlockNames 0 2 = a
    generalize h1 : dummyBlockNames 1 2 = b
    simp [dummyNames, Res.foldList, SMap.insert, h0, h1]
  obtain ⟨res, hr⟩ := computeCovariance_returns (cs := ⟨fun _ => some 2, fun _ => .ok true, fun _ => some fun _ _ => 1⟩)
    (blocks := [7, 5]) (names := [(7, dummyBlockNames 0 2), (5, dummyBlockNames 1 2)]) (masks := []) rfl (by
      intro b hb
      simp only [List.mem_cons, List.not_mem_nil, or_false] at hb
      rcases hb with rfl | rfl
      · exact ⟨dummyBlockNames 0 2, rfl, by simp [dummyBlockNames]⟩
      · exact ⟨dummyBlockNames 1 2, rfl, by simp [dummyBlockNames]⟩) rfl rfl
  refine ⟨res, ?_, ⟨fun b n h => by cases h; norm_num, fun b l h => by simp [SMap.find] at h⟩⟩
  unfold computeCovarianceUnnamed
  rw [hn, Res.ok_bind, hr]

/-! ## C90 No result without data -/

theorem computeCovariance_unknown {cs : CovSolver} {blocks : List Nat} {names : SMap Nat (List String)}
    {masks : SMap Nat (List Int)} {res : CovResult} (h : computeCovariance cs blocks names masks = .ok res) {b : Nat}
    (hb : b ∈ blocks) : (cs.blockSize b).isSome := by
  obtain ⟨size, l, h, -⟩ := (C26_returns _ _ _ _ _ h).2.1 b hb
  rw [h]; rfl

theorem covSolver_isSome {β : Type} {s : Ceres β} {pb : List (ResBlock β)} {st : Nat → β} {n b : Nat}
    (h : ((s.covSolver pb st n).blockSize b).isSome) : b ∈ usedBlocks pb := by
  unfold Ceres.covSolver at h
  by_contra hb
  simp [hb] at h

theorem covSolverF_isSome {β : Type} {s : Ceres β} {pb : List (ResBlock β)} {st : Nat → β} {n : Nat → Nat} {b : Nat}
    (h : ((s.covSolverF pb st n).blockSize b).isSome) : b ∈ usedBlocks pb := by
  unfold Ceres.covSolverF at h
  by_contra hb
  simp [hb] at h

theorem C90_pnp (s : Ceres V3) (p2 : PnPProblem Corr2) (p3 : PnPProblem Corr3) :
    (p2.correspondences = [] → ∀ r, pnp2 s p2 ≠ .ok r) ∧ (p3.correspondences = [] → ∀ r, pnp3 s p3 ≠ .ok r) := by
  have key : ∀ {κ : Type} (p : PnPProblem κ) (r : PnPResult), pnpFinish s p [] ≠ .ok r := by
    intro κ p r h
    unfold pnpFinish at h
    simp only [Res.bind_ok_iff] at h
    obtain ⟨cov, hc, -⟩ := h
    have := covSolver_isSome (computeCovariance_unknown hc (b := pnpRot) (by simp))
    simp [usedBlocks] at this
  refine ⟨fun h r => ?_, fun h r => ?_⟩
  · unfold pnp2 pnpBuild2; rw [h]; exact key p2 r
  · unfold pnp3 pnpBuild3; rw [h]; exact key p3 r

theorem C90_handEye (s : Ceres Pose6) (hs : s.WF) (p2 : HandEyeProblem Corr2) (p3 : HandEyeProblem Corr3) :
    ((∀ o ∈ p2.observations, o.corrs = []) → ∀ r, handEye2 s p2 ≠ .ok r) ∧
    ((∀ o ∈ p3.observations, o.corrs = []) → ∀ r, handEye3 s p3 ≠ .ok r) := by
  have key : ∀ {κ : Type} (p : HandEyeProblem κ) (r : HandEyeResult), heFinish s p [] ≠ .ok r := by
    intro κ p r h
    unfold heFinish at h
    simp only [Res.bind_ok_iff] at h
    obtain ⟨cov, hc, -⟩ := h
    have h0 : s.order [] = [] := by
      have := hs.order_perm []
      rw [usedBlocks_nil] at this; exact this.eq_nil
    have := (C26_returns _ _ _ _ _ hc).1
    rw [h0] at this
    simp [SMap.size, SMap.insert, heCam, heTgt] at this
  have hf : ∀ {κ : Type} (l : List (Obs κ)), (∀ o ∈ l, o.corrs = []) → features l = [] := by
    intro κ l h
    rw [List.eq_nil_iff_forall_not_mem]
    intro f hf
    have := mem_features.1 hf
    rw [h _ this.1] at this
    cases this.2
  refine ⟨fun h r hr => ?_, fun h r hr => ?_⟩
  · unfold handEye2 at hr
    rcases heBuild2_cases p2 with ⟨-, hb⟩ | ⟨-, hb⟩
    · rw [hb, hf _ h] at hr; exact key p2 r hr
    · rw [hb] at hr; cases hr
  · unfold handEye3 at hr
    rw [heBuild3_eq, hf _ h] at hr
    exact key p3 r hr

theorem C90_circle (s : Ceres Mem) (hs : s.WF) (p : CircleFitProblem) (h : p.observations = []) (r : CircleFitResult) :
    circleFit s p ≠ .ok r := by
  intro hr
  unfold circleFit circleBuild at hr
  rw [h] at hr
  simp only [Res.bind_ok_iff, List.map_nil] at hr
  obtain ⟨cov, hc, -⟩ := hr
  have h0 : s.order [] = [] := by
    have := hs.order_perm []
    rw [usedBlocks_nil] at this; exact this.eq_nil
  have := (C26_returns _ _ _ _ _ hc).1
  rw [h0] at this
  simp [SMap.size, SMap.insert] at this

/-- Intrinsic calibration: already one image without correspondences, or no image at all, is enough. -/
theorem C90_intrinsic (s3 : Ceres V3) (s : Ceres Mem) (p : IntrinsicProblem)
    (h : p.observations = [] ∨ [] ∈ p.observations) (r : IntrinsicResult) : intrinsic s3 s p ≠ .ok r := by
  intro hr
  unfold intrinsic at hr
  simp only [Res.bind_ok_iff] at hr
  obtain ⟨poses, hp, cov, hc, -⟩ := hr
  have hlen : poses.length = p.observations.length := by
    unfold intrPoses at hp
    rw [Res.mapList_ok_iff] at hp
    exact hp.length_eq.symm
  rcases h with h | h
  · have := covSolverF_isSome (computeCovariance_unknown hc (b := intrBlk) (by simp))
    rw [mem_usedBlocks] at this
    obtain ⟨b, hb, -⟩ := this
    have : poses = [] := List.length_eq_zero_iff.1 (by rw [hlen, h]; rfl)
    simp [intrBuild, validIdx, this] at hb
  · obtain ⟨i, hi⟩ := List.mem_iff_getElem?.1 h
    have hil : i < p.observations.length := (List.getElem?_eq_some_iff.1 hi).1
    have := covSolverF_isSome (computeCovariance_unknown hc (b := poseBlk i)
      (List.mem_cons_of_mem _ (List.mem_map.2 ⟨i, List.mem_range.2 hil, rfl⟩)))
    rw [mem_usedBlocks] at this
    obtain ⟨b, hb, hm⟩ := this
    unfold intrBuild at hb
    rw [List.mem_flatMap] at hb
    obtain ⟨j, -, hb⟩ := hb
    rw [List.mem_map] at hb
    obtain ⟨k, hk, rfl⟩ := hb
    simp only [poseBlk, intrBlk, List.mem_cons, List.not_mem_nil, or_false] at hm
    have : i = j := by omega
    subst this
    rw [List.getD_eq_getElem?_getD, hi] at hk
    cases hk

/-- Multi static camera calibration: already one camera without correspondences, or no camera at all, is enough. -/
theorem C90_multiStatic (s : Ceres Pose6) (p : MsProblem)
    (h : p.baseToCameraGuess = [] ∨ ∃ c < p.baseToCameraGuess.length, ∀ oc, p.observations[c]? = some oc → ∀ l ∈ oc, l = [])
    (r : MsResult) : multiStatic s p ≠ .ok r := by
  intro hr
  unfold multiStatic at hr
  simp only [Res.bind_ok_iff] at hr
  obtain ⟨pb, hpb, cov, hc, -⟩ := hr
  have hpb' := Res.flatMapList_forall₂ (R := fun (e : Nat × List (List Corr2)) (b : ResBlock Pose6) =>
      b.blocks = [msCam e.1, msTgt] ∧ e.1 < p.baseToCameraGuess.length ∧ p.observations[e.1]? = some e.2 ∧ ∃ l ∈ e.2, l ≠ [])
    (s := fun c => (((p.wristPoses[c]?).getD []).length |> List.range).flatMap fun i =>
      ((((p.observations[c]?).getD [])[i]?).getD []).map fun _ => (c, (p.observations[c]?).getD [])) (by
    intro c hcm bs hbs
    rw [Res.bind_ok_iff] at hbs
    obtain ⟨wp, hwp, hbs⟩ := hbs
    rw [Res.idxList_ok_iff] at hwp
    rw [hwp]
    refine Res.flatMapList_forall₂ ?_ hbs
    intro i _ bs' hbs'
    simp only [Res.bind_ok_iff] at hbs'
    obtain ⟨oc, hoc, oci, hoci, hbs'⟩ := hbs'
    rw [Res.idxList_ok_iff] at hoc hoci
    rw [hoc]
    simp only [Option.getD_some, hoci]
    refine Res.mapList_forall₂ ?_ hbs'
    intro k hk b hb
    simp only [Res.bind_ok_iff] at hb
    obtain ⟨w, -, intr, -, hb⟩ := hb
    cases hb
    exact ⟨rfl, List.mem_range.1 hcm, hoc, oci, List.mem_of_getElem? hoci, List.ne_nil_of_mem hk⟩) hpb
  rcases h with h | ⟨c, hcl, h⟩
  · have := covSolver_isSome (computeCovariance_unknown hc (b := msTgt) (by simp))
    rw [mem_usedBlocks] at this
    obtain ⟨b, hb, -⟩ := this
    obtain ⟨e, -, -, he, -⟩ := Forall₂.mem_right hpb' hb
    rw [h] at he; simp at he
  · have := covSolver_isSome (computeCovariance_unknown hc (b := msCam c)
      (List.mem_append_left _ (List.mem_map.2 ⟨c, List.mem_range.2 hcl, rfl⟩)))
    rw [mem_usedBlocks] at this
    obtain ⟨b, hb, hm⟩ := this
    obtain ⟨e, -, hbl, -, ho, l, hl, hne⟩ := Forall₂.mem_right hpb' hb
    rw [hbl] at hm
    simp only [msCam, msTgt, List.mem_cons, List.not_mem_nil, or_false] at hm
    have : c = e.1 := by omega
    subst this
    exact hne (h e.2 ho l hl)

/-- Kinematic calibration without measurements. -/
theorem C90_kinematic (K : KCeres) (hK : K.WF) (p : KinProblem) (r : KinResult) :
    (∀ intr obs, (∀ o ∈ obs, o.correspondences = []) → kinematic2 K p intr obs ≠ .ok r) ∧
    ∀ w, kinematic6 K p w [] ≠ .ok r := by
  refine ⟨fun intr obs h hr => ?_, fun w hr => ?_⟩
  · unfold kinematic2 at hr
    obtain ⟨R⟩ := kinOptimize_ok hK hr
    apply R.ne
    unfold kinCosts2
    rw [List.flatMap_eq_nil_iff]
    intro o ho
    rw [h o ho]; rfl
  · unfold kinematic6 at hr
    obtain ⟨R⟩ := kinOptimize_ok hK hr
    exact R.ne rfl

/-- Non-vacuity: with data, results are returned (`C46_accepts`, `C34`, ... ); here the circle fit. -/
example : ∃ r, circleFit (idCeres Mem) ⟨[⟨1, 0⟩], 0, 0, 1⟩ = .ok r := by
  have hu : usedBlocks (circleBuild ⟨[⟨1, 0⟩], 0, 0, 1⟩) = [0] := by simp [circleBuild, usedBlocks]
  obtain ⟨cov, hc⟩ := computeCovariance_returns
    (cs := (idCeres Mem).covSolver (circleBuild ⟨[⟨1, 0⟩], 0, 0, 1⟩) (circleInit ⟨[⟨1, 0⟩], 0, 0, 1⟩) 3)
    (blocks := [0]) (names := SMap.insert [] 0 circleLabels) (masks := []) rfl (by
      intro b hb
      simp only [List.mem_cons, List.not_mem_nil, or_false] at hb
      subst hb
      exact ⟨circleLabels, rfl, by simp [Ceres.covSolver, hu, circleLabels]⟩) rfl rfl
  unfold circleFit
  simp only [idCeres] at hc ⊢
  rw [hu, hc, Res.ok_bind]
  exact ⟨_, rfl⟩

/-! ## C91 Covariance of the circle fit -/

/-- Partial derivatives of a residual of three parameters. -/
noncomputable def partials (f : ℝ → ℝ → ℝ → ℝ) (x y z : ℝ) : Fin 3 → ℝ := fun i =>
  match i with
  | 0 => deriv (fun t => f t y z) x
  | 1 => deriv (fun t => f x t z) y
  | 2 => deriv (fun t => f x y t) z

/-- `C` is the covariance of a least squares estimate of three parameters with unit variance residuals: the inverse of
`JᵀJ` for the Jacobian at the estimate. -/
def IsEstimateCovariance (fs : List (ℝ → ℝ → ℝ → ℝ)) (x y z : ℝ) (C : Matrix (Fin 3) (Fin 3) ℝ) : Prop :=
  let J : Matrix (Fin fs.length) (Fin 3) ℝ := Matrix.of fun k i => partials (fs.get k) x y z i
  J.transpose * J * C = 1

/-- The residual of an observation as a function of centre and radius. -/
def radiusResidual (o : V2) (x y r : ℝ) : ℝ := r ^ 2 - (o.x - x) ^ 2 - (o.y - y) ^ 2

/-- The parameter block of the fit as a function of its three values. -/
def block3 (x y z : ℝ) : Mem := fun o => match o with | 0 => x | 1 => y | 2 => z | _ => 0

/-- The residual as a function of the optimised values. -/
def blockResidual (o : V2) (x y z : ℝ) : ℝ := (circleCost o (block3 x y z)).headD 0

theorem blockResidual_eq (o : V2) (x y z : ℝ) : blockResidual o x y z = radiusResidual o x y (z * z) := by
  simp [blockResidual, circleCost, block3, radiusResidual]; ring

theorem partials_block (o : V2) (x y z : ℝ) (i : Fin 3) :
    partials (blockResidual o) x y z i = (if i = 2 then 2 * z else 1) * partials (radiusResidual o) x y (z * z) i := by
  fin_cases i
  · simp [partials, blockResidual_eq]
  · simp [partials, blockResidual_eq]
  · have h1 : HasDerivAt (fun t : ℝ => radiusResidual o x y (t * t)) (4 * z ^ 3) z := by
      unfold radiusResidual
      have := (((hasDerivAt_id z).mul (hasDerivAt_id z)).pow 2).sub_const ((o.x - x) ^ 2) |>.sub_const ((o.y - y) ^ 2)
      refine this.congr_deriv ?_
      simp only [id, Pi.mul_apply]; push_cast; ring
    have h2 : HasDerivAt (fun t : ℝ => radiusResidual o x y t) (2 * (z * z)) (z * z) := by
      unfold radiusResidual
      have := (((hasDerivAt_id (z * z))).pow 2).sub_const ((o.x - x) ^ 2) |>.sub_const ((o.y - y) ^ 2)
      refine this.congr_deriv ?_
      simp only [id]; push_cast; ring
    simp only [partials, blockResidual_eq]
    simp only [Fin.reduceFinMk, if_true]
    rw [h1.deriv, h2.deriv]; ring

/-- Scale factors of the three parameters: d(radius) / d(optimised value) for the third. -/
noncomputable def radiusScale (z : ℝ) : Matrix (Fin 3) (Fin 3) ℝ := Matrix.diagonal fun i => if i = 2 then 2 * z else 1

theorem estimate_iff (os : List V2) (g : V2 → ℝ → ℝ → ℝ → ℝ) (u v w : ℝ) (M : Matrix (Fin 3) (Fin 3) ℝ) :
    IsEstimateCovariance (os.map g) u v w M ↔
      (Matrix.of fun (k : Fin os.length) i => partials (g (os.get k)) u v w i).transpose *
        (Matrix.of fun (k : Fin os.length) i => partials (g (os.get k)) u v w i) * M = 1 := by
  unfold IsEstimateCovariance
  simp only
  have : (Matrix.of fun (k : Fin (os.map g).length) i => partials ((os.map g).get k) u v w i).transpose *
      (Matrix.of fun (k : Fin (os.map g).length) i => partials ((os.map g).get k) u v w i) =
      (Matrix.of fun (k : Fin os.length) i => partials (g (os.get k)) u v w i).transpose *
        (Matrix.of fun (k : Fin os.length) i => partials (g (os.get k)) u v w i) := by
    ext i j
    rw [Matrix.mul_apply, Matrix.mul_apply]
    refine Fintype.sum_equiv (finCongr (List.length_map (f := g) (as := os))) _ _ ?_
    intro k
    simp [Matrix.transpose_apply]
  rw [this]

theorem estimate_scaled (os : List V2) (x y z : ℝ) {C C' : Matrix (Fin 3) (Fin 3) ℝ}
    (h : IsEstimateCovariance (os.map blockResidual) x y z C)
    (h' : IsEstimateCovariance (os.map radiusResidual) x y (z * z) C') :
    C' = radiusScale z * C * radiusScale z := by
  rw [estimate_iff] at h h'
  have hJ : (Matrix.of fun (k : Fin os.length) i => partials (blockResidual (os.get k)) x y z i) =
      (Matrix.of fun (k : Fin os.length) i => partials (radiusResidual (os.get k)) x y (z * z) i) * radiusScale z := by
    ext k i
    unfold radiusScale
    rw [Matrix.mul_diagonal]
    simp only [Matrix.of_apply]
    rw [partials_block]; ring
  obtain ⟨B, hB⟩ : ∃ B : Matrix (Fin os.length) (Fin 3) ℝ, B = Matrix.of fun (k : Fin os.length) i =>
    partials (radiusResidual (os.get k)) x y (z * z) i := ⟨_, rfl⟩
  rw [hJ, ← hB] at h
  rw [← hB] at h'
  have hD : (radiusScale z).transpose = radiusScale z := Matrix.diagonal_transpose _
  rw [Matrix.transpose_mul, hD] at h
  -- D Bᵀ B D C = 1, hence D is invertible and Bᵀ B (D C D) = 1
  have h2 : radiusScale z * (B.transpose * B * (radiusScale z * C)) = 1 := by
    rw [← h]; simp only [Matrix.mul_assoc]
  have h3 : B.transpose * B * (radiusScale z * C) * radiusScale z = 1 := mul_eq_one_comm.1 h2
  have h4 : B.transpose * B * (radiusScale z * C * radiusScale z) = 1 := by
    rw [← h3]; simp only [Matrix.mul_assoc]
  have h5 : (radiusScale z * C * radiusScale z) * (B.transpose * B) = 1 := mul_eq_one_comm.1 h4
  calc C' = (radiusScale z * C * radiusScale z) * (B.transpose * B) * C' := by rw [h5, Matrix.one_mul]
    _ = (radiusScale z * C * radiusScale z) * (B.transpose * B * C') := by rw [Matrix.mul_assoc]
    _ = _ := by rw [h', Matrix.mul_one]

/-- What the covariance service has to deliver: the covariance of the optimised values. -/
def CircleCovContract (s : Ceres Mem) (p : CircleFitProblem) : Prop :=
  ∀ st full, s.covMatrix (circleBuild p) st [0] = some full →
    IsEstimateCovariance (p.observations.map blockResidual) (st 0 0) (st 0 1) (st 0 2)
      (Matrix.of fun i j => full i.val j.val)

theorem circle_cov (s : Ceres Mem) (hs : s.WF) (p : CircleFitProblem) (r : CircleFitResult) (h : circleFit s p = .ok r) :
    ∃ full, s.covMatrix (circleBuild p) (s.solve (circleBuild p) (circleInit p)) [0] = some full ∧
      (∀ i j : Fin 3, r.covariance.covariance_matrix.val i j = full i j) := by
  have hne : p.observations ≠ [] := fun h0 => C90_circle s hs p h0 r h
  unfold circleFit at h
  simp only [Res.bind_ok_iff] at h
  obtain ⟨cov, hc, h⟩ := h
  cases h
  have hu : s.order (circleBuild p) = [0] := by
    have h1 := hs.order_perm (circleBuild p)
    have h2 := usedBlocks_const p.observations hne (fun o => (⟨[0], evalMem1 (circleCost o)⟩ : ResBlock Mem)) [0] (by simp)
      (fun _ _ => rfl)
    exact List.perm_singleton.1 (h1.trans h2)
  rw [hu] at hc
  obtain ⟨full, hf, -, -, hk⟩ := computeCovariance_unmasked (fun b n hb => by
    unfold Ceres.covSolver at hb
    simp only at hb
    split at hb
    · cases hb; norm_num
    · cases hb) hc
  refine ⟨full, hf, ?_⟩
  have h0 : 0 ∈ usedBlocks (circleBuild p) := by
    rw [← (hs.order_perm _).mem_iff, hu]; simp
  have hE : ∀ k < 3, (Spec.elements (fun b => (((s.covSolver (circleBuild p)
      (s.solve (circleBuild p) (circleInit p)) 3)).blockSize b).getD 0) [0])[k]? = some (0, k) := by
    intro k hk
    simp [Spec.elements, Ceres.covSolver, h0, hk]
  intro i j
  exact (hk i 0 i (hE i i.2)).1 j 0 j (hE j j.2)

/-- Full statement: the covariance reported for x, y and r is the covariance of the reported centre and radius.
Proved: exactly how the reported matrix differs from it; the entries of the centre are right. Missing: the entries of the
radius, which are those of its square root (`C91_negation`). -/
theorem C91_partial (s : Ceres Mem) (hs : s.WF) (p : CircleFitProblem) (hc : CircleCovContract s p) (r : CircleFitResult)
    (h : circleFit s p = .ok r) (C : Matrix (Fin 3) (Fin 3) ℝ)
    (hC : IsEstimateCovariance (p.observations.map radiusResidual) r.xCenter r.yCenter r.radius C) :
    (∀ i j : Fin 3, i ≠ 2 → j ≠ 2 → r.covariance.covariance_matrix.val i j = C i j) ∧
    C 2 2 = 4 * r.radius * r.covariance.covariance_matrix.val 2 2 := by
  obtain ⟨full, hf, hv⟩ := circle_cov s hs p r h
  have hcov := hc _ _ hf
  obtain ⟨q1, q2, q3, -⟩ := circleFit_ok h
  obtain ⟨st, hst⟩ : ∃ st, st = s.solve (circleBuild p) (circleInit p) := ⟨_, rfl⟩
  rw [← hst] at q1 q2 q3 hcov hf
  rw [q1, q2, q3, pow_two] at hC
  have e := estimate_scaled p.observations _ _ _ hcov hC
  have he : ∀ i j : Fin 3, C i j = (if i = 2 then 2 * st 0 2 else 1) * full i j * (if j = 2 then 2 * st 0 2 else 1) := by
    intro i j
    rw [e]
    unfold radiusScale
    rw [Matrix.mul_diagonal, Matrix.diagonal_mul, Matrix.of_apply]
  refine ⟨fun i j hi hj => ?_, ?_⟩
  · rw [hv, he, if_neg hi, if_neg hj]; ring
  · have := hv 2 2
    rw [he, if_pos rfl, q3, show r.covariance.covariance_matrix.val 2 2 = full 2 2 from this]
    have : full ((2 : Fin 3) : Nat) ((2 : Fin 3) : Nat) = full 2 2 := rfl
    rw [this]
    ring

/-- A variance of an estimate is positive. -/
theorem estimate_pos (fs : List (ℝ → ℝ → ℝ → ℝ)) (x y z : ℝ) {C : Matrix (Fin 3) (Fin 3) ℝ}
    (h : IsEstimateCovariance fs x y z C) (i : Fin 3) : 0 < C i i := by
  unfold IsEstimateCovariance at h
  simp only at h
  obtain ⟨J, hJ⟩ : ∃ J : Matrix (Fin fs.length) (Fin 3) ℝ, J = Matrix.of fun k i => partials (fs.get k) x y z i := ⟨_, rfl⟩
  rw [← hJ] at h
  -- C = Cᵀ (Jᵀ J) C
  have hT : C.transpose * (J.transpose * J) = 1 := by
    have := congrArg Matrix.transpose h
    rw [Matrix.transpose_mul, Matrix.transpose_mul, Matrix.transpose_transpose, Matrix.transpose_one] at this
    exact this
  have hC : C = (J * C).transpose * (J * C) := by
    rw [Matrix.transpose_mul]
    calc C = (C.transpose * (J.transpose * J)) * C := by rw [hT, Matrix.one_mul]
      _ = _ := by simp only [Matrix.mul_assoc]
  have hs : C i i = ∑ k, (J * C) k i * (J * C) k i := by
    conv_lhs => rw [hC]
    rw [Matrix.mul_apply]
    rfl
  have h0 : 0 ≤ C i i := by rw [hs]; exact Finset.sum_nonneg fun k _ => mul_self_nonneg _
  rcases h0.lt_or_eq with h1 | h1
  · exact h1
  · exfalso
    have hz : ∀ k, (J * C) k i = 0 := by
      have := (Finset.sum_eq_zero_iff_of_nonneg (fun k _ => mul_self_nonneg ((J * C) k i))).1 (hs.symm.trans h1.symm)
      intro k
      exact mul_self_eq_zero.1 (this k (Finset.mem_univ k))
    have : (J.transpose * J * C) i i = 0 := by
      rw [Matrix.mul_assoc, Matrix.mul_apply]
      exact Finset.sum_eq_zero fun k _ => by rw [hz k, mul_zero]
    rw [h] at this
    simp at this

/-- The reported variance of the radius is wrong for every circle whose radius is not 1/4. -/
theorem C91_negation (s : Ceres Mem) (hs : s.WF) (p : CircleFitProblem) (hc : CircleCovContract s p) (r : CircleFitResult)
    (h : circleFit s p = .ok r) (hr : r.radius ≠ 1 / 4) (C : Matrix (Fin 3) (Fin 3) ℝ)
    (hC : IsEstimateCovariance (p.observations.map radiusResidual) r.xCenter r.yCenter r.radius C) :
    r.covariance.covariance_matrix.val 2 2 ≠ C 2 2 := by
  intro e
  have h1 := (C91_partial s hs p hc r h C hC).2
  rw [e] at h1
  have hpos := estimate_pos _ _ _ _ hC 2
  apply hr
  have : C 2 2 * (1 - 4 * r.radius) = 0 := by linarith
  rcases mul_eq_zero.1 this with h | h
  · exact absurd h hpos.ne'
  · linarith

theorem partials_radius (o : V2) (x y r : ℝ) :
    partials (radiusResidual o) x y r = ![2 * (o.x - x), 2 * (o.y - y), 2 * r] := by
  have h0 : HasDerivAt (fun t : ℝ => radiusResidual o t y r) (2 * (o.x - x)) x := by
    unfold radiusResidual
    have := ((((hasDerivAt_id x).const_sub o.x).pow 2).const_sub (r ^ 2)).sub_const ((o.y - y) ^ 2)
    exact this.congr_deriv (by simp only [id]; push_cast; ring)
  have h1 : HasDerivAt (fun t : ℝ => radiusResidual o x t r) (2 * (o.y - y)) y := by
    unfold radiusResidual
    have := (((hasDerivAt_id y).const_sub o.y).pow 2).const_sub (r ^ 2 - (o.x - x) ^ 2)
    exact this.congr_deriv (by simp only [id]; push_cast; ring)
  have h2 : HasDerivAt (fun t : ℝ => radiusResidual o x y t) (2 * r) r := by
    unfold radiusResidual
    have := (((hasDerivAt_id r).pow 2).sub_const ((o.x - x) ^ 2)).sub_const ((o.y - y) ^ 2)
    exact this.congr_deriv (by simp only [id]; push_cast; ring)
  ext i
  fin_cases i
  · exact h0.deriv
  · exact h1.deriv
  · exact h2.deriv

/-- Four points of the unit circle. -/
def circle4 : CircleFitProblem := ⟨[⟨1, 0⟩, ⟨0, 1⟩, ⟨-1, 0⟩, ⟨0, -1⟩], 0, 0, 1⟩

/-- A solver that keeps the start values and knows the covariance of the unit circle. -/
noncomputable def circle4Ceres : Ceres Mem :=
  { idCeres Mem with
    covMatrix := fun _ st _ => if st 0 0 = 0 ∧ st 0 1 = 0 ∧ st 0 2 = 1 then
      some fun i j => if i = j then (if i = 2 then 1 / 64 else 1 / 8) else 0 else none }

/-- The hypotheses of `C91_partial` and `C91_negation` hold for four points of the unit circle. -/
example : circle4Ceres.WF ∧ CircleCovContract circle4Ceres circle4 ∧ ∃ r C, circleFit circle4Ceres circle4 = .ok r ∧
    r.radius ≠ 1 / 4 ∧ IsEstimateCovariance (circle4.observations.map radiusResidual) r.xCenter r.yCenter r.radius C := by
  refine ⟨⟨(idCeres_wf Mem).frame, (idCeres_wf Mem).descent, (idCeres_wf Mem).order_perm, (idCeres_wf Mem).compute_no_throw⟩,
    ?_, ?_⟩
  · intro st full h
    simp only [circle4Ceres] at h
    split at h
    · rename_i hz
      obtain ⟨h0, h1, h2⟩ := hz
      cases h
      rw [h0, h1, h2, estimate_iff]
      have e : (Matrix.of fun (k : Fin circle4.observations.length) i =>
          partials (blockResidual (circle4.observations.get k)) 0 0 1 i) = !![2, 0, 4; 0, 2, 4; -2, 0, 4; 0, -2, 4] := by
        ext k i
        simp only [Matrix.of_apply, partials_block, partials_radius]
        change Fin 4 at k
        fin_cases k <;> fin_cases i <;> simp [circle4] <;> norm_num
      rw [e]
      have e2 : (!![2, 0, 4; 0, 2, 4; -2, 0, 4; 0, -2, 4] : Matrix (Fin 4) (Fin 3) ℝ).transpose *
          (!![2, 0, 4; 0, 2, 4; -2, 0, 4; 0, -2, 4] : Matrix (Fin 4) (Fin 3) ℝ) *
          (Matrix.of fun i j : Fin 3 => if i.val = j.val then (if i.val = 2 then 1 / 64 else 1 / 8) else (0 : ℝ)) = 1 := by
        ext i j
        fin_cases i <;> fin_cases j <;> simp [Matrix.mul_apply, Fin.sum_univ_succ] <;> norm_num
      exact e2
    · cases h
  · have hu : usedBlocks (circleBuild circle4) = [0] := by simp [circleBuild, usedBlocks, circle4]
    obtain ⟨cov, hc⟩ := computeCovariance_returns
      (cs := circle4Ceres.covSolver (circleBuild circle4) (circleInit circle4) 3)
      (blocks := [0]) (names := SMap.insert [] 0 circleLabels) (masks := [])
      rfl (by
        intro b hb
        simp only [List.mem_cons, List.not_mem_nil, or_false] at hb
        subst hb
        exact ⟨circleLabels, rfl, by simp [Ceres.covSolver, hu, circleLabels]⟩) rfl
        (by simp [circle4Ceres, Ceres.covSolver, circleInit, circle4])
    have hr : circleFit circle4Ceres circle4 = .ok ⟨true, costPerObs (circleBuild circle4) (circleInit circle4),
        costPerObs (circleBuild circle4) (circleInit circle4), cov, 0, 0, 1⟩ := by
      unfold circleFit
      simp only [circle4Ceres, idCeres] at hc ⊢
      rw [hu, hc, Res.ok_bind]
      simp [circleInit, circle4]
    refine ⟨_, !![1 / 8, 0, 0; 0, 1 / 8, 0; 0, 0, 1 / 16], hr, by norm_num, ?_⟩
    simp only
    rw [estimate_iff]
    have e : (Matrix.of fun (k : Fin circle4.observations.length) i =>
        partials (radiusResidual (circle4.observations.get k)) 0 0 1 i) = !![2, 0, 2; 0, 2, 2; -2, 0, 2; 0, -2, 2] := by
      ext k i
      simp only [Matrix.of_apply, partials_radius]
      change Fin 4 at k
      fin_cases k <;> fin_cases i <;> simp [circle4]
    rw [e]
    have e2 : (!![2, 0, 2; 0, 2, 2; -2, 0, 2; 0, -2, 2] : Matrix (Fin 4) (Fin 3) ℝ).transpose *
        (!![2, 0, 2; 0, 2, 2; -2, 0, 2; 0, -2, 2] : Matrix (Fin 4) (Fin 3) ℝ) *
        (!![1 / 8, 0, 0; 0, 1 / 8, 0; 0, 0, 1 / 16] : Matrix (Fin 3) (Fin 3) ℝ) = 1 := by
      ext i j
      fin_cases i <;> fin_cases j <;> simp [Matrix.mul_apply, Fin.sum_univ_succ] <;> norm_num
    exact e2

end RCT
