import Verif.Lemmas.Zhang
import Verif.Props.Intrinsic
import Verif.Props.Identify
import Verif.Props.IdentifyStatic
import Verif.Props.Reports

/-!
# C181, C182: images that determine focal lengths and centre, and images that do not
-/

namespace RCT
open Spec

/-! ## C181 -/

/-- Two cameras that see plane targets at the same pixels, in poses of not too few directions, are the same camera. -/
theorem camera_unique {i i' : Intr} (hx : i.fx ≠ 0) (hy : i.fy ≠ 0) {views : List (Iso × Iso)}
    (hv : ∀ v ∈ views, v.1.IsRigid ∧ v.2.IsRigid ∧ v.1.inv.t.z ≠ 0 ∧ ∃ a b c d, Quadrangle a b c d ∧
      ∀ p ∈ [a, b, c, d], (v.1.apply p).z ≠ 0 ∧ (v.2.apply p).z ≠ 0 ∧ pinhole i' (v.2.apply p) = pinhole i (v.1.apply p))
    (hfew : ¬ FewDirections (views.map fun v => planeNormal v.1)) : SameCamera i' i := by
  have hne : views ≠ [] := by
    rintro rfl
    have hez : (⟨0, 0, 1⟩ : V3) ≠ 0 := fun h => by have := congrArg V3.z h; simp at this
    exact hfew ⟨⟨0, 0, 1⟩, ⟨0, 0, 1⟩, hez, hez, by simp, by simp⟩
  have hfoc : i'.fx ≠ 0 ∧ i'.fy ≠ 0 := by
    obtain ⟨v, l, hl⟩ := List.exists_cons_of_ne_nil hne
    obtain ⟨r1, r2, hc, a, b, c, d, hq, hpts⟩ := hv v (by rw [hl]; simp)
    obtain ⟨k, hk, e0, e1, e2, -⟩ := view_relation r1 hx hy hc hq hpts
    exact view_focal r1 hx hy hc hk e0 e1 e2
  obtain ⟨hx', hy'⟩ := hfoc
  obtain ⟨A, hA⟩ : ∃ A, A = i.fx / i'.fx := ⟨_, rfl⟩
  obtain ⟨B, hB⟩ : ∃ B, B = (i.cx - i'.cx) / i'.fx := ⟨_, rfl⟩
  obtain ⟨C, hC⟩ : ∃ C, C = i.fy / i'.fy := ⟨_, rfl⟩
  obtain ⟨D, hD⟩ : ∃ D, D = (i.cy - i'.cy) / i'.fy := ⟨_, rfl⟩
  have hA0 : A ≠ 0 := by rw [hA]; exact div_ne_zero hx hx'
  have hC0 : C ≠ 0 := by rw [hC]; exact div_ne_zero hy hy'
  obtain ⟨h1, h2, h3, h4⟩ := form5_scalar (q00 := A * A) (q11 := C * C) (q22 := B * B + D * D + 1) (q02 := A * B) (q12 := C * D)
    (ns := views.map fun v => planeNormal v.1)
    (by
      intro n hn h0
      obtain ⟨v, hvv, rfl⟩ := List.mem_map.1 hn
      obtain ⟨-, -, c3, -⟩ := M3.IsRot.cols (hv v hvv).1
      have e0 := congrArg V3.x h0; have e1 := congrArg V3.y h0; have e2 := congrArg V3.z h0
      simp only [planeNormal, V3.zero_x, V3.zero_y, V3.zero_z] at e0 e1 e2
      rw [e0, e1, e2] at c3
      norm_num at c3)
    hfew
    (by
      intro n hn
      obtain ⟨v, hvv, rfl⟩ := List.mem_map.1 hn
      obtain ⟨r1, r2, hc, a, b, c, d, hq, hpts⟩ := hv v hvv
      obtain ⟨k, hk, -, e1, e2, -⟩ := view_relation r1 hx hy hc hq hpts
      have f1 := shear_of_map hx' hy' e1
      have f2 := shear_of_map hx' hy' e2
      rw [← hA, ← hB, ← hC, ← hD] at f1 f2
      obtain ⟨g1, g2, -, g4, -, -⟩ := M3.IsRot.cols r2
      have key : ∀ x y : V3, (V3.smul k (shear A B C D x)).dot (V3.smul k (shear A B C D y)) =
          k * k * form5 (A * A) (C * C) (B * B + D * D + 1) (A * B) (C * D) x y := by
        intro x y
        rw [← shear_dot]
        simp only [V3.dot, V3.smul]; ring
      have hkk : k * k ≠ 0 := mul_ne_zero hk hk
      have d1 : k * k * form5 (A * A) (C * C) (B * B + D * D + 1) (A * B) (C * D) v.1.R.c0 v.1.R.c0 = 1 := by
        rw [← key, ← f1]; simp only [V3.dot, M3.c0]; exact g1
      have d2 : k * k * form5 (A * A) (C * C) (B * B + D * D + 1) (A * B) (C * D) v.1.R.c1 v.1.R.c1 = 1 := by
        rw [← key, ← f2]; simp only [V3.dot, M3.c1]; exact g2
      have d3 : k * k * form5 (A * A) (C * C) (B * B + D * D + 1) (A * B) (C * D) v.1.R.c0 v.1.R.c1 = 0 := by
        rw [← key, ← f1, ← f2]; simp only [V3.dot, M3.c0, M3.c1]; exact g4
      refine ⟨1 / (k * k), plane_form r1 ?_ ?_ ?_⟩
      · rw [eq_div_iff hkk]; linear_combination d1
      · rw [eq_div_iff hkk]; linear_combination d2
      · exact (mul_eq_zero.1 d3).resolve_left hkk)
  have hB0 : B = 0 := (mul_eq_zero.1 h3).resolve_left hA0
  have hD0 : D = 0 := (mul_eq_zero.1 h4).resolve_left hC0
  rw [hB0, hD0] at h2
  have hAA : A * A = 1 := by linarith
  have hCC : C * C = 1 := by linarith
  have ex : i.fx = A * i'.fx := by rw [hA]; field_simp
  have ey : i.fy = C * i'.fy := by rw [hC]; field_simp
  refine ⟨?_, ?_, ?_, ?_⟩
  · rw [ex]; linear_combination (-(i'.fx ^ 2)) * hAA
  · rw [ey]; linear_combination (-(i'.fy ^ 2)) * hCC
  · rw [hB] at hB0
    have := (div_eq_zero_iff.1 hB0).resolve_right hx'
    linarith
  · rw [hD] at hD0
    have := (div_eq_zero_iff.1 hD0).resolve_right hy'
    linarith

/-- The images of a run that returns are all usable. -/
theorem intrinsic_features {s3 : Ceres V3} {s : Ceres Mem} {p : IntrinsicProblem} {res : IntrinsicResult}
    (h : intrinsic s3 s p = .ok res) {poses : List (Option Pose6)} (hp : intrPoses s3 p = .ok poses) (f : Nat × Corr2) :
    f ∈ usableFeatures p.observations (validIdx poses) ↔ f.1 < p.observations.length ∧ f.2 ∈ p.observations.getD f.1 [] := by
  obtain ⟨hlen, hval, -⟩ := C43_partial s3 p poses hp
  have hall := C43_partial_returns s3 s p res h
  simp only [usableFeatures, List.mem_flatMap, List.mem_map]
  constructor
  · rintro ⟨i, hi, k, hk, rfl⟩
    obtain ⟨obs, q, ho, -⟩ := (hval i).1 hi
    exact ⟨(List.getElem?_eq_some_iff.1 ho).1, hk⟩
  · rintro ⟨hi, hk⟩
    obtain ⟨q, hq⟩ := hall p.observations[f.1] (by simp)
    exact ⟨f.1, (hval f.1).2 ⟨_, q, by simp, hq⟩, f.2, hk, rfl⟩

/-- An exact result without distortion explains the images. -/
theorem intrinsic_exact {s3 : Ceres V3} {s : Ceres Mem} {p : IntrinsicProblem} {res : IntrinsicResult}
    (h : intrinsic s3 s p = .ok res) (hdist : res.distortions = [0, 0, 0, 0, 0]) (hcost : res.finalCost = some 0) :
    ∃ poses, intrPoses s3 p = .ok poses ∧ ∀ T' : Nat → Iso,
      (∀ i, T' i = poseCalToEigen (s.solve (intrBuild p poses) (intrInit p poses) (poseBlk i)).pose) →
      (∀ i, i < p.observations.length → ∀ k ∈ p.observations.getD i [], ((T' i).apply k.inTarget).z ≠ 0) →
      PerfectImages res.intrinsics T' p.observations := by
  obtain ⟨k1, k2, p1, p2, k3, poses, hd, hp, hres⟩ := C89_residuals s3 s p res h
  refine ⟨poses, hp, fun T' hT' hz => ?_⟩
  obtain ⟨poses', hp', -, hfin, -⟩ := intrinsic_ok h
  rw [hp] at hp'
  cases hp'
  rw [hdist] at hd
  simp only [List.cons.injEq, and_true] at hd
  obtain ⟨rfl, rfl, rfl, rfl, rfl⟩ := hd
  have hr := hres T' hT' fun f hf => by
    obtain ⟨h1, h2⟩ := (intrinsic_features h hp f).1 hf
    exact hz f.1 h1 f.2 h2
  rw [hfin, costPerObs_eq_meanCost, meanCost_eq_zero_iff, hr, flatMap_zero] at hcost
  intro i hi k hk
  refine ⟨hz i hi k hk, ?_⟩
  have := diff2_zero.1 (hcost.2 (i, k) ((intrinsic_features h hp (i, k)).2 ⟨hi, hk⟩))
  rw [← this]
  simp [brown, pinhole]

/-- Perfect images of a plane target, without lens distortion. Let some of the images show four features of the target, no three on
one line, and let the planes of the target in these images not have too few directions. Then every run that ends with cost
zero and without distortion reports the true centre and, up to sign, the true focal lengths. -/
theorem C181_unique (s3 : Ceres V3) (s : Ceres Mem) (p : IntrinsicProblem) (res : IntrinsicResult)
    (h : intrinsic s3 s p = .ok res) (intr : Intr) (hx : intr.fx ≠ 0) (hy : intr.fy ≠ 0) (T : Nat → Iso)
    (hT : ∀ i, i < p.observations.length → RigidMotion (T i)) (hdata : PerfectImages intr T p.observations)
    (good : List Nat) (hgood : ∀ i ∈ good, i < p.observations.length ∧ SeesQuadrangle (p.observations.getD i []) ∧ (T i).inv.t.z ≠ 0)
    (hfew : ¬ FewDirections (good.map fun i => planeNormal (T i)))
    (hdist : res.distortions = [0, 0, 0, 0, 0]) (hcost : res.finalCost = some 0) :
    ∃ poses, intrPoses s3 p = .ok poses ∧ ∀ T' : Nat → Iso,
      (∀ i, T' i = poseCalToEigen (s.solve (intrBuild p poses) (intrInit p poses) (poseBlk i)).pose) →
      (∀ i, i < p.observations.length → RigidMotion (T' i)) →
      (∀ i, i < p.observations.length → ∀ k ∈ p.observations.getD i [], ((T' i).apply k.inTarget).z ≠ 0) →
      SameCamera res.intrinsics intr := by
  obtain ⟨poses, hp, hex⟩ := intrinsic_exact h hdist hcost
  refine ⟨poses, hp, fun T' hT' hrig hz => ?_⟩
  have hper := hex T' hT' hz
  refine camera_unique hx hy (views := good.map fun i => (T i, T' i)) ?_ ?_
  · intro v hv
    obtain ⟨i, hi, rfl⟩ := List.mem_map.1 hv
    obtain ⟨hil, ⟨a, ha, b, hb, c, hc, d, hd, hq⟩, hcam⟩ := hgood i hi
    refine ⟨(rigid_iff _).2 (hT i hil), (rigid_iff _).2 (hrig i hil), hcam, _, _, _, _, hq, ?_⟩
    have key : ∀ k ∈ p.observations.getD i [], ((T i).apply k.inTarget).z ≠ 0 ∧ ((T' i).apply k.inTarget).z ≠ 0 ∧
        pinhole res.intrinsics ((T' i).apply k.inTarget) = pinhole intr ((T i).apply k.inTarget) := by
      intro k hk
      obtain ⟨e1, e2⟩ := hdata i hil k hk
      obtain ⟨e3, e4⟩ := hper i hil k hk
      exact ⟨e1, e3, e4.symm.trans e2⟩
    intro q hq'
    simp only [List.mem_cons, List.not_mem_nil, or_false] at hq'
    rcases hq' with rfl | rfl | rfl | rfl
    · exact key a ha
    · exact key b hb
    · exact key c hc
    · exact key d hd
  · rw [List.map_map]
    exact hfew

/-- Both focal lengths positive: the camera is the true one. -/
theorem SameCamera_eq {a b : Intr} (h : SameCamera a b) (hx : 0 < a.fx * b.fx) (hy : 0 < a.fy * b.fy) : a = b := by
  obtain ⟨h1, h2, h3, h4⟩ := h
  have key : ∀ s t : ℝ, s ^ 2 = t ^ 2 → 0 < s * t → s = t := by
    intro s t h0 h
    rcases sq_eq_sq_iff_eq_or_eq_neg.1 h0 with h' | h'
    · exact h'
    · exfalso; rw [h'] at h; nlinarith [sq_nonneg t]
  cases a; cases b
  simp only [Intr.mk.injEq] at *
  exact ⟨key _ _ h1 hx, key _ _ h2 hy, h3, h4⟩

theorem parallel_trans {a b n : V3} (hn : n ≠ 0) (ha : a.cross n = 0) (hb : b.cross n = 0) : a.cross b = 0 := by
  have hpos := V3.normSq_pos hn
  have ax := congrArg V3.x ha; have ay := congrArg V3.y ha; have az := congrArg V3.z ha
  have bx := congrArg V3.x hb; have by' := congrArg V3.y hb; have bz := congrArg V3.z hb
  simp only [V3.cross, V3.zero_x, V3.zero_y, V3.zero_z] at ax ay az bx by' bz
  simp only [V3.normSq, V3.dot] at hpos
  ext <;> simp only [V3.cross, V3.zero_x, V3.zero_y, V3.zero_z] <;>
    refine (mul_eq_zero.1 (?_ : _ * (n.x * n.x + n.y * n.y + n.z * n.z) = 0)).resolve_right hpos.ne'
  · linear_combination (b.z * n.z + b.x * n.x + b.y * n.y) * ax - (a.x * n.x + a.y * n.y + a.z * n.z) * bx +
      n.x * (a.x * bx + a.y * by' + a.z * bz)
  · linear_combination (b.z * n.z + b.x * n.x + b.y * n.y) * ay - (a.x * n.x + a.y * n.y + a.z * n.z) * by' +
      n.y * (a.x * bx + a.y * by' + a.z * bz)
  · linear_combination (b.z * n.z + b.x * n.x + b.y * n.y) * az - (a.x * n.x + a.y * n.y + a.z * n.z) * bz +
      n.z * (a.x * bx + a.y * by' + a.z * bz)

/-- Three different directions are enough. -/
theorem not_few_of_three {a b c : V3} {ns : List V3} (ha : a ∈ ns) (hb : b ∈ ns) (hc : c ∈ ns) (hab : a.cross b ≠ 0)
    (hac : a.cross c ≠ 0) (hbc : b.cross c ≠ 0) : ¬ FewDirections ns := by
  rintro ⟨n, v, hn, hv, -, h⟩
  rcases h a ha with a1 | a1 <;> rcases h b hb with b1 | b1 <;> rcases h c hc with c1 | c1
  all_goals first
    | exact hab (parallel_trans hn a1 b1)
    | exact hab (parallel_trans hv a1 b1)
    | exact hac (parallel_trans hn a1 c1)
    | exact hac (parallel_trans hv a1 c1)
    | exact hbc (parallel_trans hn b1 c1)
    | exact hbc (parallel_trans hv b1 c1)

theorem parallel_scale {a n : V3} (hn : n ≠ 0) (h : a.cross n = 0) : ∃ k, a = V3.smul k n := by
  have hpos := V3.normSq_pos hn
  have ax := congrArg V3.x h; have ay := congrArg V3.y h; have az := congrArg V3.z h
  simp only [V3.cross, V3.zero_x, V3.zero_y, V3.zero_z] at ax ay az
  simp only [V3.normSq, V3.dot] at hpos
  refine ⟨(a.x * n.x + a.y * n.y + a.z * n.z) / (n.x * n.x + n.y * n.y + n.z * n.z), ?_⟩
  ext <;> simp only [V3.smul] <;> rw [div_mul_eq_mul_div, eq_div_iff hpos.ne']
  · linear_combination n.z * (-ay) + n.y * az
  · linear_combination n.z * ax - n.x * az
  · linear_combination n.x * ay - n.y * ax

/-- Two different directions are enough unless the products of their components vanish in this way. -/
theorem not_few_of_two {a b : V3} {ns : List V3} (ha : a ∈ ns) (hb : b ∈ ns) (hab : a.cross b ≠ 0)
    (hmix : a.x * b.y + a.y * b.x ≠ 0) : ¬ FewDirections ns := by
  rintro ⟨n, v, hn, hv, h0, h⟩
  rcases h a ha with a1 | a1 <;> rcases h b hb with b1 | b1
  · exact hab (parallel_trans hn a1 b1)
  · obtain ⟨k, rfl⟩ := parallel_scale hn a1
    obtain ⟨l, rfl⟩ := parallel_scale hv b1
    apply hmix; simp only [V3.smul]; linear_combination (k * l) * h0
  · obtain ⟨k, rfl⟩ := parallel_scale hv a1
    obtain ⟨l, rfl⟩ := parallel_scale hn b1
    apply hmix; simp only [V3.smul]; linear_combination (k * l) * h0
  · exact hab (parallel_trans hv a1 b1)

/-- One direction is never enough. -/
theorem few_of_parallel {n : V3} (hn : n ≠ 0) {ns : List V3} (h : ∀ m ∈ ns, m.cross n = 0) : FewDirections ns :=
  ⟨n, ⟨0, 0, 1⟩, hn, fun h => by have := congrArg V3.z h; simp at this, by simp, fun m hm => Or.inl (h m hm)⟩

theorem planeNormal_ne {T : Iso} (h : T.IsRigid) : planeNormal T ≠ 0 := by
  intro h0
  obtain ⟨-, -, c3, -⟩ := M3.IsRot.cols h
  have e0 := congrArg V3.x h0; have e1 := congrArg V3.y h0; have e2 := congrArg V3.z h0
  simp only [planeNormal, V3.zero_x, V3.zero_y, V3.zero_z] at e0 e1 e2
  rw [e0, e1, e2] at c3
  norm_num at c3

/-- `C181_unique` for three images of the target in three different directions; if the signs of the focal lengths are right then
the camera is the true one. -/
theorem C181_three (s3 : Ceres V3) (s : Ceres Mem) (p : IntrinsicProblem) (res : IntrinsicResult)
    (h : intrinsic s3 s p = .ok res) (intr : Intr) (T : Nat → Iso)
    (hT : ∀ i, i < p.observations.length → RigidMotion (T i)) (hdata : PerfectImages intr T p.observations)
    (i j k : Nat) (hgood : ∀ m ∈ [i, j, k], m < p.observations.length ∧ SeesQuadrangle (p.observations.getD m []) ∧ (T m).inv.t.z ≠ 0)
    (hij : (planeNormal (T i)).cross (planeNormal (T j)) ≠ 0) (hik : (planeNormal (T i)).cross (planeNormal (T k)) ≠ 0)
    (hjk : (planeNormal (T j)).cross (planeNormal (T k)) ≠ 0)
    (hdist : res.distortions = [0, 0, 0, 0, 0]) (hcost : res.finalCost = some 0)
    (hfx : 0 < res.intrinsics.fx * intr.fx) (hfy : 0 < res.intrinsics.fy * intr.fy) :
    ∃ poses, intrPoses s3 p = .ok poses ∧ ∀ T' : Nat → Iso,
      (∀ i, T' i = poseCalToEigen (s.solve (intrBuild p poses) (intrInit p poses) (poseBlk i)).pose) →
      (∀ i, i < p.observations.length → RigidMotion (T' i)) →
      (∀ i, i < p.observations.length → ∀ k ∈ p.observations.getD i [], ((T' i).apply k.inTarget).z ≠ 0) →
      res.intrinsics = intr := by
  obtain ⟨poses, hp, hu⟩ := C181_unique s3 s p res h intr (right_ne_zero_of_mul hfx.ne') (right_ne_zero_of_mul hfy.ne') T hT hdata
    [i, j, k] hgood (not_few_of_three (a := planeNormal (T i)) (b := planeNormal (T j)) (c := planeNormal (T k))
      (by simp) (by simp) (by simp) hij hik hjk) hdist hcost
  exact ⟨poses, hp, fun T' h1 h2 h3 => SameCamera_eq (hu T' h1 h2 h3) hfx hfy⟩

/-- The same for two images, unless the two normals are mirrored in the directions of rows and columns. -/
theorem C181_two (s3 : Ceres V3) (s : Ceres Mem) (p : IntrinsicProblem) (res : IntrinsicResult)
    (h : intrinsic s3 s p = .ok res) (intr : Intr) (T : Nat → Iso)
    (hT : ∀ i, i < p.observations.length → RigidMotion (T i)) (hdata : PerfectImages intr T p.observations)
    (i j : Nat) (hgood : ∀ m ∈ [i, j], m < p.observations.length ∧ SeesQuadrangle (p.observations.getD m []) ∧ (T m).inv.t.z ≠ 0)
    (hij : (planeNormal (T i)).cross (planeNormal (T j)) ≠ 0)
    (hmix : (planeNormal (T i)).x * (planeNormal (T j)).y + (planeNormal (T i)).y * (planeNormal (T j)).x ≠ 0)
    (hdist : res.distortions = [0, 0, 0, 0, 0]) (hcost : res.finalCost = some 0)
    (hfx : 0 < res.intrinsics.fx * intr.fx) (hfy : 0 < res.intrinsics.fy * intr.fy) :
    ∃ poses, intrPoses s3 p = .ok poses ∧ ∀ T' : Nat → Iso,
      (∀ i, T' i = poseCalToEigen (s.solve (intrBuild p poses) (intrInit p poses) (poseBlk i)).pose) →
      (∀ i, i < p.observations.length → RigidMotion (T' i)) →
      (∀ i, i < p.observations.length → ∀ k ∈ p.observations.getD i [], ((T' i).apply k.inTarget).z ≠ 0) →
      res.intrinsics = intr := by
  obtain ⟨poses, hp, hu⟩ := C181_unique s3 s p res h intr (right_ne_zero_of_mul hfx.ne') (right_ne_zero_of_mul hfy.ne') T hT hdata
    [i, j] hgood (not_few_of_two (a := planeNormal (T i)) (b := planeNormal (T j)) (by simp) (by simp) hij hmix) hdist hcost
  exact ⟨poses, hp, fun T' h1 h2 h3 => SameCamera_eq (hu T' h1 h2 h3) hfx hfy⟩

/-! ## C182 -/

theorem Ceres.redirect_covSolverF {β : Type} (c : Ceres β) (pb : List (ResBlock β)) (init st st' : Nat → β) (n : Nat → Nat) :
    (c.redirect pb init st st').covSolverF pb st' n = c.covSolverF pb st n := by
  classical
  simp [Ceres.redirect, Ceres.covSolverF]

/-- Every state not worse than the guesses can be the end of an intrinsic calibration. -/
theorem intrinsic_other {s3 : Ceres V3} {s : Ceres Mem} (hs : s.WF) {p : IntrinsicProblem} {res : IntrinsicResult}
    (h : intrinsic s3 s p = .ok res) {poses : List (Option Pose6)} (hp : intrPoses s3 p = .ok poses) {st' : Nat → Mem}
    (hf : ∀ a, a ∉ usedBlocks (intrBuild p poses) → st' a = intrInit p poses a)
    (hd : cost (intrBuild p poses) st' ≤ cost (intrBuild p poses) (intrInit p poses)) :
    ∃ (s' : Ceres Mem) (res' : IntrinsicResult), s'.WF ∧ intrinsic s3 s' p = .ok res' ∧
      s'.solve (intrBuild p poses) (intrInit p poses) = st' ∧ res'.finalCost = costPerObs (intrBuild p poses) st' ∧
      res'.intrinsics = ⟨st' intrBlk 0, st' intrBlk 1, st' intrBlk 2, st' intrBlk 3⟩ ∧
      res'.distortions = [st' intrBlk 4, st' intrBlk 5, st' intrBlk 6, st' intrBlk 7, st' intrBlk 8] := by
  unfold intrinsic at h
  rw [hp, Res.ok_bind] at h
  simp only [Res.bind_ok_iff] at h
  obtain ⟨cov, hc, -⟩ := h
  refine ⟨s.redirect (intrBuild p poses) (intrInit p poses) (s.solve (intrBuild p poses) (intrInit p poses)) st',
    ⟨s.converged (intrBuild p poses) (intrInit p poses), costPerObs (intrBuild p poses) (intrInit p poses),
      costPerObs (intrBuild p poses) st', _, _, [], cov⟩, Ceres.redirect_wf hs hf hd, ?_, Ceres.redirect_solve .., rfl, rfl, rfl⟩
  unfold intrinsic
  rw [hp, Res.ok_bind]
  simp only [Ceres.redirect_solve, Ceres.redirect_covSolverF, Res.bind_ok_iff]
  exact ⟨cov, hc, rfl⟩

/-- The memory of a camera without distortion. -/
def Intr.mem (i : Intr) : Mem := fun o =>
  match o with
  | 0 => i.fx | 1 => i.fy | 2 => i.cx | 3 => i.cy | _ => 0

/-- Every camera and target poses that explain the images can be the end of an intrinsic calibration. -/
theorem intrinsic_reached {s3 : Ceres V3} {s : Ceres Mem} (hs : s.WF) {p : IntrinsicProblem} {res : IntrinsicResult}
    (h : intrinsic s3 s p = .ok res) {intr : Intr} {T : Nat → Iso} (hT : ∀ i, i < p.observations.length → RigidMotion (T i))
    (hdata : PerfectImages intr T p.observations) :
    ∃ (s' : Ceres Mem) (res' : IntrinsicResult) (poses : List (Option Pose6)), s'.WF ∧ intrinsic s3 s' p = .ok res' ∧
      intrPoses s3 p = .ok poses ∧ res'.finalCost = some 0 ∧ res'.distortions = [0, 0, 0, 0, 0] ∧ res'.intrinsics = intr ∧
      ∀ i, i < p.observations.length → poseCalToEigen (s'.solve (intrBuild p poses) (intrInit p poses) (poseBlk i)).pose = T i := by
  classical
  obtain ⟨poses, hp, -⟩ := intrinsic_ok h
  have hposes : ∀ i, ∃ q : Pose6, i < p.observations.length → poseCalToEigen q = T i := by
    intro i
    by_cases hi : i < p.observations.length
    · obtain ⟨q, hq⟩ := exists_pose6 ((rigid_iff _).2 (hT i hi))
      exact ⟨q, fun _ => hq⟩
    · exact ⟨⟨0, 0, 0, 0, 0, 0⟩, fun h => absurd h hi⟩
  choose q hq using hposes
  have hne : p.observations ≠ [] := fun h0 => C90_intrinsic s3 s p (Or.inl h0) res h
  have hempty : [] ∉ p.observations := fun h0 => C90_intrinsic s3 s p (Or.inr h0) res h
  have hlen : 0 < p.observations.length := List.length_pos_iff.2 hne
  have hfeat : ∀ i, i < p.observations.length → ∃ k, (i, k) ∈ usableFeatures p.observations (validIdx poses) := by
    intro i hi
    have hget : p.observations.getD i [] = p.observations[i] := by simp [hi]
    have hn : p.observations[i] ≠ [] := fun h0 => hempty (by rw [← h0]; simp)
    obtain ⟨k, l, hkl⟩ := List.exists_cons_of_ne_nil hn
    exact ⟨k, (intrinsic_features h hp (i, k)).2 ⟨hi, by simp only [hget, hkl]; simp⟩⟩
  let st' : Nat → Mem := fun a => if a ∈ usedBlocks (intrBuild p poses) then (if a = intrBlk then intr.mem else (q (a - 1)).mem)
    else intrInit p poses a
  have hused : ∀ i k, (i, k) ∈ usableFeatures p.observations (validIdx poses) →
      poseBlk i ∈ usedBlocks (intrBuild p poses) ∧ intrBlk ∈ usedBlocks (intrBuild p poses) := by
    intro i k hk
    have hm : (⟨[poseBlk i, intrBlk], evalMem2 (intrinsicCost k.inTarget k.inImage)⟩ : ResBlock Mem) ∈ intrBuild p poses := by
      rw [intrBuild_eq]
      exact List.mem_map.2 ⟨(i, k), hk, rfl⟩
    exact ⟨mem_usedBlocks.2 ⟨_, hm, by simp⟩, mem_usedBlocks.2 ⟨_, hm, by simp⟩⟩
  have hpb : ∀ i, i < p.observations.length → st' (poseBlk i) = (q i).mem := by
    intro i hi
    obtain ⟨k, hk⟩ := hfeat i hi
    have h1 := (hused i k hk).1
    simp only [st', if_pos h1]
    rw [if_neg (by simp [poseBlk, intrBlk])]
    rfl
  have hib : st' intrBlk = intr.mem := by
    obtain ⟨k, hk⟩ := hfeat 0 hlen
    have h1 := (hused 0 k hk).2
    simp only [st', if_pos h1, if_true]
  have hzero : ∀ e ∈ residuals (intrBuild p poses) st', e = 0 := by
    rw [intrBuild_eq, residuals_map, flatMap_zero]
    intro f hf
    obtain ⟨h1, h2⟩ := (intrinsic_features h hp f).1 hf
    obtain ⟨hz, him⟩ := hdata f.1 h1 f.2 h2
    simp only [ResBlock.residual, List.map_cons, List.map_nil, evalMem2, intrinsicCost, hpb f.1 h1, hib, transformPoint_eq]
    have e1 : poseCalToEigen (Mem.pose (q f.1).mem) = T f.1 := hq f.1 h1
    have e2 : Mem.intr9 intr.mem = ⟨intr.fx, intr.fy, intr.cx, intr.cy, 0, 0, 0, 0, 0⟩ := rfl
    rw [e1, e2, C42_pinhole _ _ _ _ _ hz, him]
    simp
  obtain ⟨s', res', w1, w2, w3, w4, w5, w6⟩ := intrinsic_other hs h hp (st' := st')
    (fun a ha => by simp only [st', if_neg ha]) (by rw [cost_zero hzero]; exact cost_nonneg _ _)
  refine ⟨s', res', poses, w1, w2, hp, ?_, ?_, ?_, ?_⟩
  · rw [w4, costPerObs_eq_meanCost, meanCost_eq_zero_iff]
    refine ⟨?_, hzero⟩
    obtain ⟨k, hk⟩ := hfeat 0 hlen
    rw [intrBuild_eq, residuals_map]
    intro h0
    rw [List.flatMap_eq_nil_iff] at h0
    have := h0 _ hk
    simp [ResBlock.residual, evalMem2, intrinsicCost] at this
  · rw [w6, hib]; rfl
  · rw [w5, hib]; rfl
  · intro i hi
    rw [w3, hpb i hi]
    exact hq i hi

/-- Perfect images of a plane target, without lens distortion, whose planes have few directions. Whenever the calibration returns for
these images, there are runs that end with cost zero and no distortion with the true camera, and others that do so with another camera:
one with focal lengths of the same signs, for which the targets are in front of the camera wherever they are so in truth. -/
theorem C182_open (s3 : Ceres V3) (s : Ceres Mem) (hs : s.WF) (p : IntrinsicProblem) (res : IntrinsicResult)
    (h : intrinsic s3 s p = .ok res) (intr : Intr) (hx : intr.fx ≠ 0) (hy : intr.fy ≠ 0) (T : Nat → Iso)
    (hT : ∀ i, i < p.observations.length → RigidMotion (T i)) (hdata : PerfectImages intr T p.observations)
    (hplane : ∀ obs ∈ p.observations, ∀ k ∈ obs, k.inTarget.z = 0)
    (hfew : FewDirections ((List.range p.observations.length).map fun i => planeNormal (T i))) :
    (∃ (s' : Ceres Mem) (res' : IntrinsicResult), s'.WF ∧ intrinsic s3 s' p = .ok res' ∧ res'.finalCost = some 0 ∧
      res'.distortions = [0, 0, 0, 0, 0] ∧ res'.intrinsics = intr) ∧
    ∃ (s' : Ceres Mem) (res' : IntrinsicResult) (poses : List (Option Pose6)) (T' : Nat → Iso), s'.WF ∧ intrinsic s3 s' p = .ok res' ∧
      res'.finalCost = some 0 ∧ res'.distortions = [0, 0, 0, 0, 0] ∧ ¬ SameCamera res'.intrinsics intr ∧
      0 < res'.intrinsics.fx * intr.fx ∧ 0 < res'.intrinsics.fy * intr.fy ∧ intrPoses s3 p = .ok poses ∧
      ∀ i, i < p.observations.length → RigidMotion (T' i) ∧
        poseCalToEigen (s'.solve (intrBuild p poses) (intrInit p poses) (poseBlk i)).pose = T' i ∧
        ∀ k ∈ p.observations.getD i [], 0 < ((T i).apply k.inTarget).z → 0 < ((T' i).apply k.inTarget).z := by
  constructor
  · obtain ⟨s', res', poses, w1, w2, -, w3, w4, w5, -⟩ := intrinsic_reached hs h hT hdata
    exact ⟨s', res', w1, w2, w3, w4, w5⟩
  · obtain ⟨i', hdiff, px, py, hother⟩ := camera_other hx hy (by
      intro n hn
      obtain ⟨i, hi, rfl⟩ := List.mem_map.1 hn
      exact planeNormal_ne ((rigid_iff _).2 (hT i (List.mem_range.1 hi)))) hfew
    have hex : ∀ i, ∃ T' : Iso, i < p.observations.length → T'.IsRigid ∧ ∀ q : V3, q.z = 0 →
        (0 < ((T i).apply q).z → 0 < (T'.apply q).z) ∧
        (((T i).apply q).z ≠ 0 → (T'.apply q).z ≠ 0 ∧ pinhole i' (T'.apply q) = pinhole intr ((T i).apply q)) := by
      intro i
      by_cases hi : i < p.observations.length
      · obtain ⟨T', hT'⟩ := hother (T i) ((rigid_iff _).2 (hT i hi)) (List.mem_map.2 ⟨i, List.mem_range.2 hi, rfl⟩)
        exact ⟨T', fun _ => hT'⟩
      · exact ⟨1, fun h => absurd h hi⟩
    choose T' hT' using hex
    have hz : ∀ i, i < p.observations.length → ∀ k ∈ p.observations.getD i [], k.inTarget.z = 0 := by
      intro i hi k hk
      have hget : p.observations.getD i [] = p.observations[i] := by simp [hi]
      exact hplane _ (by rw [hget]; simp) k hk
    obtain ⟨s', res', poses, w1, w2, w0, w3, w4, w5, w6⟩ := intrinsic_reached hs h (intr := i') (T := T')
      (fun i hi => (rigid_iff _).1 (hT' i hi).1) (by
        intro i hi k hk
        obtain ⟨g1, g2⟩ := hdata i hi k hk
        obtain ⟨-, g3⟩ := (hT' i hi).2 _ (hz i hi k hk)
        obtain ⟨g4, g5⟩ := g3 g1
        exact ⟨g4, g2.trans g5.symm⟩)
    refine ⟨s', res', poses, T', w1, w2, w3, w4, by rw [w5]; exact hdiff, by rw [w5]; exact px, by rw [w5]; exact py, w0, ?_⟩
    intro i hi
    exact ⟨(rigid_iff _).1 (hT' i hi).1, w6 i hi, fun k hk => ((hT' i hi).2 _ (hz i hi k hk)).1⟩

/-- In particular this holds if the target never turns out of one direction: if its planes are parallel in all images. -/
theorem C182_parallel (s3 : Ceres V3) (s : Ceres Mem) (hs : s.WF) (p : IntrinsicProblem) (res : IntrinsicResult)
    (h : intrinsic s3 s p = .ok res) (intr : Intr) (hx : intr.fx ≠ 0) (hy : intr.fy ≠ 0) (T : Nat → Iso)
    (hT : ∀ i, i < p.observations.length → RigidMotion (T i)) (hdata : PerfectImages intr T p.observations)
    (hplane : ∀ obs ∈ p.observations, ∀ k ∈ obs, k.inTarget.z = 0)
    (hpar : ∀ i, i < p.observations.length → (planeNormal (T i)).cross (planeNormal (T 0)) = 0) :
    ∃ (s' : Ceres Mem) (res' : IntrinsicResult), s'.WF ∧ intrinsic s3 s' p = .ok res' ∧ res'.finalCost = some 0 ∧
      res'.distortions = [0, 0, 0, 0, 0] ∧ ¬ SameCamera res'.intrinsics intr := by
  have hlen : 0 < p.observations.length := List.length_pos_iff.2 fun h0 => C90_intrinsic s3 s p (Or.inl h0) res h
  obtain ⟨-, s', res', -, -, h1, h2, h3, h4, h5, -⟩ := C182_open s3 s hs p res h intr hx hy T hT hdata hplane
    (few_of_parallel (planeNormal_ne ((rigid_iff _).2 (hT 0 hlen))) (by
      intro m hm
      obtain ⟨i, hi, rfl⟩ := List.mem_map.1 hm
      exact hpar i (List.mem_range.1 hi)))
  exact ⟨s', res', h1, h2, h3, h4, h5⟩

/-! ### Examples -/

/-- Every calibration of images with features returns for some solver. -/
theorem intrinsic_returns (l : List (List Corr2)) (h0 : l ≠ []) (h1 : ∀ obs ∈ l, obs ≠ []) (g : Intr) :
    ∃ res, intrinsic (idCeres V3) (idCeres Mem) ⟨l, g, "pose"⟩ = .ok res := by
  refine C43_partial_result _ _ _ h0 ?_ (fun _ _ _ => rfl) (fun _ _ _ => rfl)
  intro obs ho
  refine ⟨h1 obs ho, ?_⟩
  obtain ⟨r, hr⟩ := pnpFinish_returns (idCeres V3)
    (⟨g, obs, poseCalToEigen guessInitialPose, "camera_to_target"⟩ : PnPProblem Corr2) obs (h1 obs ho)
    (fun c => ⟨[pnpRot, pnpTrans], evalV2 (pnpCost2 g c.inTarget c.inImage)⟩) (fun _ _ => rfl) rfl rfl
  have hc : r.converged = true := by
    have h' := hr
    unfold pnpFinish at h'
    simp only [Res.bind_ok_iff] at h'
    obtain ⟨cov, -, h'⟩ := h'
    cases h'; rfl
  refine ⟨poseEigenToCal r.cameraToTarget, ?_⟩
  unfold intrSolvePnP pnp2 pnpBuild2
  simp only
  rw [hr, Res.ok_bind, if_pos hc]

/-- The target tilted in two directions, and not tilted. -/
noncomputable def tilted : Nat → Iso
  | 0 => ⟨⟨1, 0, 0, 0, 3 / 5, -4 / 5, 0, 4 / 5, 3 / 5⟩, ⟨0, 0, 5⟩⟩
  | 1 => ⟨⟨3 / 5, 0, 4 / 5, 0, 1, 0, -4 / 5, 0, 3 / 5⟩, ⟨0, 0, 5⟩⟩
  | _ => ⟨1, ⟨0, 0, 5⟩⟩

theorem tilted_rigid (i : Nat) : RigidMotion (tilted i) := by
  rw [← rigid_iff]
  rcases i with _ | _ | i
  · apply M3.IsRot.of_cols <;> simp [tilted, M3.det] <;> norm_num
  · apply M3.IsRot.of_cols <;> simp [tilted, M3.det] <;> norm_num
  · exact M3.IsRot.one

/-- Three perfect images of a square. -/
noncomputable def tiltedImages : List (List Corr2) :=
  [squareImage ⟨2, 3, 4, 5⟩ (tilted 0), squareImage ⟨2, 3, 4, 5⟩ (tilted 1), squareImage ⟨2, 3, 4, 5⟩ (tilted 2)]

theorem tilted_perfect : PerfectImages ⟨2, 3, 4, 5⟩ tilted tiltedImages := by
  intro i hi k hk
  have : i = 0 ∨ i = 1 ∨ i = 2 := by simp [tiltedImages] at hi; omega
  rcases this with rfl | rfl | rfl <;>
  · simp only [tiltedImages, List.getD_cons_zero, List.getD_cons_succ, squareImage, List.mem_map] at hk
    obtain ⟨q, hq, rfl⟩ := hk
    refine ⟨?_, rfl⟩
    simp only [squarePoints, List.mem_cons, List.not_mem_nil, or_false] at hq
    rcases hq with rfl | rfl | rfl | rfl <;> simp [tilted, Iso.apply, M3.mulVec, M3.one_def] <;> norm_num

/-- An exact run on three images of three directions. -/
example : ∃ (s : Ceres Mem) (res : IntrinsicResult) (poses : List (Option Pose6)),
    intrinsic (idCeres V3) s ⟨tiltedImages, ⟨1, 1, 0, 0⟩, "pose"⟩ = .ok res ∧ (∀ i, RigidMotion (tilted i)) ∧
    PerfectImages ⟨2, 3, 4, 5⟩ tilted tiltedImages ∧
    (∀ m ∈ [0, 1, 2], m < tiltedImages.length ∧ SeesQuadrangle (tiltedImages.getD m []) ∧ (tilted m).inv.t.z ≠ 0) ∧
    (planeNormal (tilted 0)).cross (planeNormal (tilted 1)) ≠ 0 ∧ (planeNormal (tilted 0)).cross (planeNormal (tilted 2)) ≠ 0 ∧
    (planeNormal (tilted 1)).cross (planeNormal (tilted 2)) ≠ 0 ∧
    (planeNormal (tilted 0)).x * (planeNormal (tilted 1)).y + (planeNormal (tilted 0)).y * (planeNormal (tilted 1)).x ≠ 0 ∧
    ¬ FewDirections ([0, 1, 2].map fun i => planeNormal (tilted i)) ∧
    res.distortions = [0, 0, 0, 0, 0] ∧ res.finalCost = some 0 ∧ 0 < res.intrinsics.fx * 2 ∧ 0 < res.intrinsics.fy * 3 ∧
    intrPoses (idCeres V3) ⟨tiltedImages, ⟨1, 1, 0, 0⟩, "pose"⟩ = .ok poses ∧
    ∀ i, i < tiltedImages.length → poseCalToEigen (s.solve (intrBuild ⟨tiltedImages, ⟨1, 1, 0, 0⟩, "pose"⟩ poses)
      (intrInit ⟨tiltedImages, ⟨1, 1, 0, 0⟩, "pose"⟩ poses) (poseBlk i)).pose = tilted i := by
  obtain ⟨r, hr⟩ := intrinsic_returns tiltedImages (by simp [tiltedImages]) (by simp [tiltedImages, squareImage, squarePoints]) ⟨1, 1, 0, 0⟩
  obtain ⟨s, res, poses, -, h1, h2, h3, h4, h5, h6⟩ := intrinsic_reached (idCeres_wf Mem) hr (fun i _ => tilted_rigid i) tilted_perfect
  have n1 : (planeNormal (tilted 0)).cross (planeNormal (tilted 1)) ≠ 0 := by
    intro h; have := congrArg V3.x h; simp [planeNormal, tilted, V3.cross] at this
  have n2 : (planeNormal (tilted 0)).cross (planeNormal (tilted 2)) ≠ 0 := by
    intro h; have := congrArg V3.x h; simp [planeNormal, tilted, V3.cross, M3.one_def] at this
  have n3 : (planeNormal (tilted 1)).cross (planeNormal (tilted 2)) ≠ 0 := by
    intro h; have := congrArg V3.y h; simp [planeNormal, tilted, V3.cross, M3.one_def] at this
  refine ⟨s, res, poses, h1, tilted_rigid, tilted_perfect, ?_, n1, n2, n3, ?_, ?_, h4, h3, ?_, ?_, h2, h6⟩
  · intro m hm
    simp only [List.mem_cons, List.not_mem_nil, or_false] at hm
    rcases hm with rfl | rfl | rfl
    · exact ⟨by simp [tiltedImages], squareImage_sees _ _, by simp [tilted, Iso.inv, M3.tr, M3.mulVec]⟩
    · exact ⟨by simp [tiltedImages], squareImage_sees _ _, by simp [tilted, Iso.inv, M3.tr, M3.mulVec]⟩
    · exact ⟨by simp [tiltedImages], squareImage_sees _ _, by simp [tilted, Iso.inv, M3.tr, M3.mulVec, M3.one_def]⟩
  · simp [planeNormal, tilted]
  · exact not_few_of_three (a := planeNormal (tilted 0)) (b := planeNormal (tilted 1)) (c := planeNormal (tilted 2))
      (by simp) (by simp) (by simp) n1 n2 n3
  · rw [h5]; norm_num
  · rw [h5]; norm_num

/-- Images of one direction: the calibration of one image. -/
example : ∃ (s : Ceres Mem) (res : IntrinsicResult), s.WF ∧
    intrinsic (idCeres V3) s ⟨[squareImage ⟨2, 3, 4, 5⟩ (tilted 0)], ⟨1, 1, 0, 0⟩, "pose"⟩ = .ok res ∧
    PerfectImages ⟨2, 3, 4, 5⟩ tilted [squareImage ⟨2, 3, 4, 5⟩ (tilted 0)] ∧
    (∀ obs ∈ [squareImage ⟨2, 3, 4, 5⟩ (tilted 0)], ∀ k ∈ obs, k.inTarget.z = 0) ∧
    (∀ i, i < [squareImage ⟨2, 3, 4, 5⟩ (tilted 0)].length → (planeNormal (tilted i)).cross (planeNormal (tilted 0)) = 0) ∧
    FewDirections ((List.range [squareImage ⟨2, 3, 4, 5⟩ (tilted 0)].length).map fun i => planeNormal (tilted i)) := by
  obtain ⟨r, hr⟩ := intrinsic_returns [squareImage ⟨2, 3, 4, 5⟩ (tilted 0)] (by simp) (by simp [squareImage, squarePoints]) ⟨1, 1, 0, 0⟩
  have hpar : ∀ i, i < [squareImage ⟨2, 3, 4, 5⟩ (tilted 0)].length → (planeNormal (tilted i)).cross (planeNormal (tilted 0)) = 0 := by
    intro i hi
    have : i = 0 := by simpa using hi
    subst this
    ext <;> simp only [V3.cross, V3.zero_x, V3.zero_y, V3.zero_z] <;> ring
  refine ⟨_, r, idCeres_wf Mem, hr, ?_, ?_, hpar, ?_⟩
  · intro i hi k hk
    have : i = 0 := by simpa using hi
    subst this
    exact tilted_perfect 0 (by simp [tiltedImages]) k hk
  · simp [squareImage, squarePoints]
  · refine few_of_parallel (planeNormal_ne ((rigid_iff _).2 (tilted_rigid 0))) fun m hm => ?_
    obtain ⟨i, hi, rfl⟩ := List.mem_map.1 hm
    exact hpar i (List.mem_range.1 hi)

end RCT
