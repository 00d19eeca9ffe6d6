import Mathlib.Tactic.IntervalCases
import Verif.Lemmas.Identify
import Verif.Props.Fit
import Verif.Props.CircleFit
import Verif.Props.Guess

/-!
# C148 – C153: data that determine a calibration
-/

namespace RCT
open Spec

theorem sumSq_eq_zero {l : List ℝ} (h : Spec.sumSq l = 0) : ∀ e ∈ l, e = 0 := by
  induction l with
  | nil => simp
  | cons a l ih =>
    unfold Spec.sumSq at h ih
    simp only [List.map_cons, List.sum_cons] at h
    have h1 : 0 ≤ (l.map fun e => e ^ 2).sum := List.sum_nonneg (by
      intro x hx; rw [List.mem_map] at hx; obtain ⟨e, -, rfl⟩ := hx; positivity)
    have h2 : 0 ≤ a ^ 2 := by positivity
    have ha : a ^ 2 = 0 := by linarith
    have hl : (l.map fun e => e ^ 2).sum = 0 := by linarith
    intro e he
    rcases List.mem_cons.1 he with rfl | he
    · exact pow_eq_zero_iff (two_ne_zero) |>.1 ha
    · exact ih hl e he

/-- The cost is zero exactly if there are errors and all of them vanish. -/
theorem meanCost_eq_zero_iff {l : List ℝ} : meanCost l = some 0 ↔ l ≠ [] ∧ ∀ e ∈ l, e = 0 := by
  constructor
  · intro h
    have hne : l ≠ [] := by rintro rfl; simp [meanCost] at h
    refine ⟨hne, ?_⟩
    unfold meanCost at h
    rw [if_neg hne] at h
    have hl : (l.length : ℝ) ≠ 0 := by
      have := List.length_pos_of_ne_nil hne
      exact_mod_cast this.ne'
    simp only [Option.some.injEq, div_eq_zero_iff, hl, or_false] at h
    rcases h with h | h
    · exact sumSq_eq_zero h
    · norm_num at h
  · rintro ⟨hne, h⟩
    cases hc : meanCost l with
    | none => unfold meanCost at hc; rw [if_neg hne] at hc; cases hc
    | some c => rw [meanCost_zero h c hc]

theorem diff2_zero {a b : V2} : (∀ e ∈ diff2 a b, e = 0) ↔ a = b := by
  simp only [diff2, List.mem_cons, List.not_mem_nil, or_false, forall_eq_or_imp, forall_eq]
  constructor
  · rintro ⟨h1, h2⟩; ext <;> linarith
  · rintro rfl; simp

theorem diff3_zero {a b : V3} : (∀ e ∈ diff3 a b, e = 0) ↔ a = b := by
  simp only [diff3, List.mem_cons, List.not_mem_nil, or_false, forall_eq_or_imp, forall_eq]
  constructor
  · rintro ⟨h1, h2, h3⟩; ext <;> linarith
  · rintro rfl; simp

theorem flatMap_zero {α : Type} {l : List α} {f : α → List ℝ} :
    (∀ e ∈ l.flatMap f, e = 0) ↔ ∀ a ∈ l, ∀ e ∈ f a, e = 0 := by
  simp only [List.mem_flatMap]
  constructor
  · intro h a ha e he; exact h e ⟨a, ha, he⟩
  · rintro h e ⟨a, ha, he⟩; exact h a ha e he

/-! ## C148 Circle fit -/

/-- Observations on a circle, three of them not on one line: the final cost is zero exactly if that circle is reported. -/
theorem C148_unique (s : Ceres Mem) (p : CircleFitProblem) (res : CircleFitResult) (h : circleFit s p = .ok res)
    (x y r : ℝ) (hr : 0 ≤ r) (hon : ∀ o ∈ p.observations, OnCircle x y r o) (a b c : V2) (ha : a ∈ p.observations)
    (hb : b ∈ p.observations) (hc : c ∈ p.observations) (habc : Triangle2 a b c) :
    res.finalCost = some 0 ↔ res.xCenter = x ∧ res.yCenter = y ∧ res.radius = r := by
  have hres := C49_residuals s p res h
  have hfin : res.finalCost = meanCost (residuals (circleBuild p) (s.solve (circleBuild p) (circleInit p))) := by
    unfold circleFit at h
    simp only [Res.bind_ok_iff] at h
    obtain ⟨cov, -, h⟩ := h
    cases h
    exact costPerObs_eq_meanCost _ _
  have hne : p.observations ≠ [] := by rintro h0; rw [h0] at ha; cases ha
  rw [hfin, hres, meanCost_eq_zero_iff]
  have hr' := C49_radius s p res h
  constructor
  · rintro ⟨-, hz⟩
    have key : ∀ o ∈ p.observations, (o.x - res.xCenter) ^ 2 + (o.y - res.yCenter) ^ 2 = res.radius ^ 2 ∧
        (o.x - x) ^ 2 + (o.y - y) ^ 2 = r ^ 2 := by
      intro o ho
      have := hz _ (List.mem_map.2 ⟨o, ho, rfl⟩)
      exact ⟨by linarith, hon o ho⟩
    obtain ⟨a1, a2⟩ := key a ha
    obtain ⟨b1, b2⟩ := key b hb
    obtain ⟨c1, c2⟩ := key c hc
    unfold Triangle2 at habc
    have hx : res.xCenter = x := by
      have : (res.xCenter - x) * ((b.x - a.x) * (c.y - a.y) - (b.y - a.y) * (c.x - a.x)) = 0 := by
        linear_combination (1 / 2) * ((c.y - a.y) * ((b2 - b1) - (a2 - a1)) - (b.y - a.y) * ((c2 - c1) - (a2 - a1)))
      have := (mul_eq_zero.1 this).resolve_right habc
      linarith
    have hy : res.yCenter = y := by
      have : (res.yCenter - y) * ((b.x - a.x) * (c.y - a.y) - (b.y - a.y) * (c.x - a.x)) = 0 := by
        linear_combination (1 / 2) * ((b.x - a.x) * ((c2 - c1) - (a2 - a1)) - (c.x - a.x) * ((b2 - b1) - (a2 - a1)))
      have := (mul_eq_zero.1 this).resolve_right habc
      linarith
    refine ⟨hx, hy, ?_⟩
    rw [hx, hy] at a1
    have : res.radius ^ 2 = r ^ 2 := by linarith
    nlinarith [sq_nonneg (res.radius - r), sq_nonneg (res.radius + r)]
  · rintro ⟨h1, h2, h3⟩
    refine ⟨by simpa using hne, ?_⟩
    intro e he
    obtain ⟨o, ho, rfl⟩ := List.mem_map.1 he
    have := hon o ho
    unfold OnCircle at this
    rw [h1, h2, h3]; linarith

/-- Two observations never suffice: two different circles pass through any two different points. -/
theorem C148_two_points (a b : V2) (hab : a ≠ b) : ∃ x y r x' y' r' : ℝ, 0 ≤ r ∧ 0 ≤ r' ∧ (x, y) ≠ (x', y') ∧
    OnCircle x y r a ∧ OnCircle x y r b ∧ OnCircle x' y' r' a ∧ OnCircle x' y' r' b := by
  have key : ∀ k : ℝ, ∃ r : ℝ, 0 ≤ r ∧ OnCircle ((a.x + b.x) / 2 - k * (b.y - a.y)) ((a.y + b.y) / 2 + k * (b.x - a.x)) r a ∧
      OnCircle ((a.x + b.x) / 2 - k * (b.y - a.y)) ((a.y + b.y) / 2 + k * (b.x - a.x)) r b := by
    intro k
    refine ⟨Real.sqrt ((k ^ 2 + 1 / 4) * ((b.x - a.x) ^ 2 + (b.y - a.y) ^ 2)), Real.sqrt_nonneg _, ?_, ?_⟩ <;>
    · unfold OnCircle
      rw [Real.sq_sqrt (by positivity)]
      ring
  obtain ⟨r, h1, h2, h3⟩ := key 0
  obtain ⟨r', k1, k2, k3⟩ := key 1
  refine ⟨_, _, r, _, _, r', h1, k1, ?_, h2, h3, k2, k3⟩
  intro h
  rw [Prod.mk.injEq] at h
  apply hab
  ext <;> linarith [h.1, h.2]

theorem circle_id_returns (p : CircleFitProblem) (hne : p.observations ≠ []) : ∃ res, circleFit (idCeres Mem) p = .ok res := by
  have hu : (usedBlocks (circleBuild p)).Perm [0] :=
    usedBlocks_const p.observations hne _ _ (by decide) (fun _ _ => rfl)
  obtain ⟨cov, hc⟩ := computeCovariance_returns
    (cs := (idCeres Mem).covSolver (circleBuild p) ((idCeres Mem).solve (circleBuild p) (circleInit p)) 3)
    (blocks := (idCeres Mem).order (circleBuild p)) (names := SMap.insert [] 0 circleLabels) (masks := [])
    (by show SMap.size _ = (usedBlocks _).length; rw [hu.length_eq]; rfl)
    (by
      intro b hb
      have hb' : b ∈ usedBlocks (circleBuild p) := hb
      have h0 := hu.subset hb'
      simp only [List.mem_singleton] at h0
      subst h0
      exact ⟨circleLabels, by rw [SMap.find_insert, if_pos rfl], by simp [Ceres.covSolver, hb', circleLabels]⟩) rfl rfl
  exact ⟨_, (Res.bind_ok_iff _ _ _).2 ⟨cov, hc, rfl⟩⟩

/-- A run on four points of a circle. -/
example : ∃ (p : CircleFitProblem) (res : CircleFitResult), circleFit (idCeres Mem) p = .ok res ∧
    (∀ o ∈ p.observations, OnCircle 1 2 5 o) ∧ ⟨6, 2⟩ ∈ p.observations ∧ ⟨1, 7⟩ ∈ p.observations ∧
    ⟨-4, 2⟩ ∈ p.observations ∧ Triangle2 ⟨6, 2⟩ ⟨1, 7⟩ ⟨-4, 2⟩ := by
  obtain ⟨res, h⟩ := circle_id_returns ⟨[⟨6, 2⟩, ⟨1, 7⟩, ⟨-4, 2⟩, ⟨4, 6⟩], 0, 0, 1⟩ (by simp)
  refine ⟨_, res, h, ?_, by simp, by simp, by simp, ?_⟩
  · intro o ho
    simp only [List.mem_cons, List.not_mem_nil, or_false] at ho
    rcases ho with rfl | rfl | rfl | rfl <;> norm_num [OnCircle]
  · norm_num [Triangle2]

/-! ## C149 PnP with 3D measurements -/

/-- Perfect measurements of a triangle: the final cost is zero exactly if the true pose is reported. -/
theorem C149_unique (s : Ceres V3) (p : PnPProblem Corr3) (res : PnPResult) (h : pnp3 s p = .ok res) (T : Iso)
    (hT : RigidMotion T) (hdata : ∀ k ∈ p.correspondences, k.inImage = T.apply k.inTarget) (a b c : Corr3)
    (ha : a ∈ p.correspondences) (hb : b ∈ p.correspondences) (hc : c ∈ p.correspondences)
    (habc : Triangle3 a.inTarget b.inTarget c.inTarget) :
    res.finalCost = some 0 ↔ res.cameraToTarget = T := by
  have hne : p.correspondences ≠ [] := by rintro h0; rw [h0] at ha; cases ha
  rw [C124_final_3d s p res h, meanCost_eq_zero_iff, pointErrors, flatMap_zero]
  constructor
  · rintro ⟨-, hz⟩
    have key : ∀ k ∈ p.correspondences, res.cameraToTarget.apply k.inTarget = T.apply k.inTarget := fun k hk =>
      (diff3_zero.1 (hz k hk)).trans (hdata k hk)
    exact Iso.IsRigid.eq_of_triangle ((rigid_iff _).2 (C35_rigid_3d s p res h)) ((rigid_iff _).2 hT) habc (key a ha)
      (key b hb) (key c hc)
  · rintro rfl
    refine ⟨?_, fun k hk => diff3_zero.2 (hdata k hk).symm⟩
    cases hp : p.correspondences with
    | nil => exact absurd hp hne
    | cons x l => simp [diff3]

theorem pnp3_id_returns (p : PnPProblem Corr3) (hne : p.correspondences ≠ []) : ∃ res, pnp3 (idCeres V3) p = .ok res :=
  pnpFinish_returns _ _ p.correspondences hne _ (fun _ _ => rfl) rfl rfl

theorem pnp2_id_returns (p : PnPProblem Corr2) (hne : p.correspondences ≠ []) : ∃ res, pnp2 (idCeres V3) p = .ok res :=
  pnpFinish_returns _ _ p.correspondences hne _ (fun _ _ => rfl) rfl rfl

/-- A run on perfect measurements of a triangle. -/
example : ∃ (p : PnPProblem Corr3) (res : PnPResult) (T : Iso), pnp3 (idCeres V3) p = .ok res ∧ RigidMotion T ∧
    (∀ k ∈ p.correspondences, k.inImage = T.apply k.inTarget) ∧ ∃ a ∈ p.correspondences, ∃ b ∈ p.correspondences,
    ∃ c ∈ p.correspondences, Triangle3 a.inTarget b.inTarget c.inTarget := by
  obtain ⟨res, h⟩ := pnp3_id_returns ⟨⟨1, 1, 0, 0⟩, [⟨0, 0, 0⟩, ⟨1, 0, 0⟩, ⟨0, 1, 0⟩].map fun q => ⟨(exRotX 1).apply q, q⟩, 1,
    "camera_to_target"⟩ (by simp)
  refine ⟨_, res, exRotX 1, h, exRotX_rigid 1, ?_, ⟨(exRotX 1).apply ⟨0, 0, 0⟩, ⟨0, 0, 0⟩⟩, by simp,
    ⟨(exRotX 1).apply ⟨1, 0, 0⟩, ⟨1, 0, 0⟩⟩, by simp, ⟨(exRotX 1).apply ⟨0, 1, 0⟩, ⟨0, 1, 0⟩⟩, by simp, ?_⟩
  · intro k hk
    obtain ⟨q, -, rfl⟩ := List.mem_map.1 hk
    rfl
  · refine ⟨by simp, fun k => ?_⟩
    simp

/-! ## C150 PnP with images of a planar target -/

theorem pinhole_same {i : Intr} (hx : i.fx ≠ 0) (hy : i.fy ≠ 0) {p q : V3} (hp : p.z ≠ 0) (hq : q.z ≠ 0)
    (h : pinhole i p = pinhole i q) : p = V3.smul (p.z / q.z) q := by
  have h1 := congrArg V2.x h
  have h2 := congrArg V2.y h
  simp only [pinhole, add_left_inj] at h1 h2
  have h1' := mul_left_cancel₀ hx h1
  have h2' := mul_left_cancel₀ hy h2
  rw [div_eq_div_iff hp hq] at h1' h2'
  ext <;> simp only [V3.smul] <;> field_simp <;> linarith

/-- **Full statement of C150:** with perfect images of four points of a planar target, no three on one line, taken from outside
its plane, the final cost is zero exactly if the true pose is reported.

Proved for reported poses with all features in front of the camera; without that it is wrong (`C150_negation`). -/
theorem C150_partial (s : Ceres V3) (p : PnPProblem Corr2) (res : PnPResult) (h : pnp2 s p = .ok res) (T : Iso)
    (hT : RigidMotion T) (hfx : p.intr.fx ≠ 0) (hfy : p.intr.fy ≠ 0)
    (hdata : ∀ k ∈ p.correspondences, k.inImage = pinhole p.intr (T.apply k.inTarget))
    (hz : ∀ k ∈ p.correspondences, (T.apply k.inTarget).z > 1 / 10 ^ 10)
    (hz' : ∀ k ∈ p.correspondences, (res.cameraToTarget.apply k.inTarget).z > 1 / 10 ^ 10) (hcam : T.inv.t.z ≠ 0)
    (a b c d : Corr2) (ha : a ∈ p.correspondences) (hb : b ∈ p.correspondences) (hc : c ∈ p.correspondences)
    (hd : d ∈ p.correspondences) (habcd : Quadrangle a.inTarget b.inTarget c.inTarget d.inTarget) :
    res.finalCost = some 0 ↔ res.cameraToTarget = T := by
  have hne : p.correspondences ≠ [] := by rintro h0; rw [h0] at ha; cases ha
  rw [C124_final s p res h hz', meanCost_eq_zero_iff, pixelErrors, flatMap_zero]
  constructor
  · rintro ⟨-, hzero⟩
    have hpos : ∀ x : ℝ, x > 1 / 10 ^ 10 → 0 < x := fun x hx => lt_trans (by norm_num) hx
    have key : ∀ k ∈ p.correspondences, res.cameraToTarget.apply k.inTarget =
        V3.smul ((res.cameraToTarget.apply k.inTarget).z / (T.apply k.inTarget).z) (T.apply k.inTarget) := by
      intro k hk
      exact pinhole_same hfx hfy (hpos _ (hz' k hk)).ne' (hpos _ (hz k hk)).ne'
        ((diff2_zero.1 (hzero k hk)).trans (hdata k hk))
    exact planar_unique ((rigid_iff _).2 (C35_rigid s p res h)) ((rigid_iff _).2 hT) habcd hcam
      (div_pos (hpos _ (hz' a ha)) (hpos _ (hz a ha))) (key a ha) (key b hb) (key c hc) (key d hd)
  · rintro rfl
    refine ⟨?_, fun k hk => diff2_zero.2 (hdata k hk).symm⟩
    cases hp : p.correspondences with
    | nil => exact absurd hp hne
    | cons x l => simp [diff2]

/-- The corners of a square on the plane of a target. -/
def squarePoints : List V3 := [⟨0, 0, 0⟩, ⟨1, 0, 0⟩, ⟨1, 1, 0⟩, ⟨0, 1, 0⟩]

theorem square_quadrangle : Quadrangle ⟨0, 0, 0⟩ ⟨1, 0, 0⟩ ⟨1, 1, 0⟩ ⟨0, 1, 0⟩ := by
  refine ⟨rfl, rfl, rfl, rfl, ?_, ?_, ?_, ?_⟩ <;> rw [triangle3_iff] <;> intro h <;> have := congrArg V3.z h <;>
    norm_num [V3.cross] at this

/-- A perfect image of the square. -/
noncomputable def squareImage (i : Intr) (T : Iso) : List Corr2 := squarePoints.map fun q => ⟨pinhole i (T.apply q), q⟩

theorem squareImage_sees (i : Intr) (T : Iso) : SeesQuadrangle (squareImage i T) :=
  ⟨⟨_, ⟨0, 0, 0⟩⟩, List.mem_map.2 ⟨⟨0, 0, 0⟩, by simp [squarePoints], rfl⟩,
    ⟨_, ⟨1, 0, 0⟩⟩, List.mem_map.2 ⟨⟨1, 0, 0⟩, by simp [squarePoints], rfl⟩,
    ⟨_, ⟨1, 1, 0⟩⟩, List.mem_map.2 ⟨⟨1, 1, 0⟩, by simp [squarePoints], rfl⟩,
    ⟨_, ⟨0, 1, 0⟩⟩, List.mem_map.2 ⟨⟨0, 1, 0⟩, by simp [squarePoints], rfl⟩, square_quadrangle⟩

/-- A pose without rotation. -/
def shiftBy (x y z : ℝ) : Iso := ⟨1, ⟨x, y, z⟩⟩

theorem shiftBy_rep (x y z : ℝ) : Representable (shiftBy x y z) := ⟨(rigid_iff _).1 M3.IsRot.one, Representable.one.2⟩

theorem shiftBy_apply (x y z : ℝ) (p : V3) : (shiftBy x y z).apply p = ⟨p.x + x, p.y + y, p.z + z⟩ := by
  ext <;> simp [shiftBy, Iso.apply, M3.mulVec]

/-- A run on a perfect image of a square. -/
example : ∃ (p : PnPProblem Corr2) (res : PnPResult) (T : Iso), pnp2 (idCeres V3) p = .ok res ∧ RigidMotion T ∧
    p.intr.fx ≠ 0 ∧ p.intr.fy ≠ 0 ∧ (∀ k ∈ p.correspondences, k.inImage = pinhole p.intr (T.apply k.inTarget)) ∧
    (∀ k ∈ p.correspondences, (T.apply k.inTarget).z > 1 / 10 ^ 10) ∧
    (∀ k ∈ p.correspondences, (res.cameraToTarget.apply k.inTarget).z > 1 / 10 ^ 10) ∧ T.inv.t.z ≠ 0 ∧
    SeesQuadrangle p.correspondences := by
  obtain ⟨p, hp⟩ : ∃ p : PnPProblem Corr2, p = ⟨⟨1, 1, 0, 0⟩, squareImage ⟨1, 1, 0, 0⟩ (shiftBy 0 0 1), shiftBy 0 0 2,
    "camera_to_target"⟩ := ⟨_, rfl⟩
  obtain ⟨res, h⟩ := pnp2_id_returns p (by rw [hp]; simp [squareImage, squarePoints])
  have hT := C34_pnp (idCeres V3) p res (fun _ _ => rfl) (by rw [hp]; exact (shiftBy_rep _ _ _).1) h
  have hg : p.guess = shiftBy 0 0 2 := by rw [hp]
  have hcs : p.correspondences = squareImage ⟨1, 1, 0, 0⟩ (shiftBy 0 0 1) := by rw [hp]
  have hi : p.intr = ⟨1, 1, 0, 0⟩ := by rw [hp]
  have hpl : ∀ k ∈ squareImage ⟨1, 1, 0, 0⟩ (shiftBy 0 0 1), k.inTarget.z = 0 ∧
      k.inImage = pinhole ⟨1, 1, 0, 0⟩ ((shiftBy 0 0 1).apply k.inTarget) := by
    intro k hk
    simp only [squareImage, squarePoints, List.map_cons, List.map_nil, List.mem_cons, List.not_mem_nil, or_false] at hk
    rcases hk with rfl | rfl | rfl | rfl <;> exact ⟨rfl, rfl⟩
  refine ⟨p, res, shiftBy 0 0 1, h, (shiftBy_rep _ _ _).1, by rw [hi]; norm_num, by rw [hi]; norm_num, ?_, ?_, ?_, ?_, ?_⟩
  · rw [hi, hcs]; exact fun k hk => (hpl k hk).2
  · rw [hcs]; intro k hk; rw [shiftBy_apply, (hpl k hk).1]; norm_num
  · rw [hT, hg, hcs]; intro k hk; rw [shiftBy_apply, (hpl k hk).1]; norm_num
  · simp [shiftBy, Iso.inv, M3.tr, M3.mulVec]
  · rw [hcs]; exact squareImage_sees _ _

/-- Perfect images of a square, one unit in front of the camera. Whatever pose behind the camera is guessed at the same lateral
position, a run that keeps the guess reports it with final cost zero. -/
theorem C150_negation (c : ℝ) (hc : c ≤ 1 / 10 ^ 10) : ∃ (p : PnPProblem Corr2) (res : PnPResult) (T : Iso),
    pnp2 (idCeres V3) p = .ok res ∧ RigidMotion T ∧ p.intr.fx ≠ 0 ∧ p.intr.fy ≠ 0 ∧
    (∀ k ∈ p.correspondences, k.inImage = pinhole p.intr (T.apply k.inTarget)) ∧
    (∀ k ∈ p.correspondences, (T.apply k.inTarget).z = 1) ∧ T.inv.t.z ≠ 0 ∧ SeesQuadrangle p.correspondences ∧
    res.finalCost = some 0 ∧ res.cameraToTarget.t.z = c ∧ T.t.z = 1 := by
  obtain ⟨p, hp⟩ : ∃ p : PnPProblem Corr2, p = ⟨⟨1, 1, 0, 0⟩, squareImage ⟨1, 1, 0, 0⟩ (shiftBy 0 0 1), shiftBy 0 0 c,
    "camera_to_target"⟩ := ⟨_, rfl⟩
  obtain ⟨res, h⟩ := pnp2_id_returns p (by rw [hp]; simp [squareImage, squarePoints])
  have hT := C34_pnp (idCeres V3) p res (fun _ _ => rfl) (by rw [hp]; exact (shiftBy_rep _ _ _).1) h
  have hg : p.guess = shiftBy 0 0 c := by rw [hp]
  have hcs : p.correspondences = squareImage ⟨1, 1, 0, 0⟩ (shiftBy 0 0 1) := by rw [hp]
  have hi : p.intr = ⟨1, 1, 0, 0⟩ := by rw [hp]
  have hpl : ∀ k ∈ squareImage ⟨1, 1, 0, 0⟩ (shiftBy 0 0 1), k.inTarget.z = 0 ∧
      k.inImage = pinhole ⟨1, 1, 0, 0⟩ ((shiftBy 0 0 1).apply k.inTarget) := by
    intro k hk
    simp only [squareImage, squarePoints, List.map_cons, List.map_nil, List.mem_cons, List.not_mem_nil, or_false] at hk
    rcases hk with rfl | rfl | rfl | rfl <;> exact ⟨rfl, rfl⟩
  refine ⟨p, res, shiftBy 0 0 1, h, (shiftBy_rep _ _ _).1, by rw [hi]; norm_num, by rw [hi]; norm_num, ?_, ?_, ?_, ?_, ?_,
    by rw [hT, hg]; rfl, rfl⟩
  · rw [hi, hcs]; exact fun k hk => (hpl k hk).2
  · rw [hcs]; intro k hk; rw [shiftBy_apply, (hpl k hk).1]; norm_num
  · simp [shiftBy, Iso.inv, M3.tr, M3.mulVec]
  · rw [hcs]; exact squareImage_sees _ _
  · obtain ⟨-, h2, h3⟩ := pnpFinish_ok h
    rw [hT] at h2
    rw [h3, costPerObs_eq_meanCost, meanCost_eq_zero_iff]
    generalize (idCeres V3).solve (pnpBuild2 p) (pnpInit p.guess) = st at h2
    rw [pnpBuild2, residuals_map]
    constructor
    · rw [hcs]; simp [squareImage, squarePoints, ResBlock.residual, evalV2, pnpCost2]
    · rw [flatMap_zero]
      intro k hk e he
      simp only [ResBlock.residual, List.map_cons, List.map_nil, evalV2, pnpCost2] at he
      rw [← h2, hg, shiftBy_apply, hi] at he
      rw [hcs] at hk
      obtain ⟨k1, k2⟩ := hpl k hk
      rw [k2, shiftBy_apply] at he
      have hn : ¬ (k.inTarget.z + c - 0 > 1 / 10 ^ 10) := by rw [k1]; push Not; linarith
      simp only [projectPointE, if_neg hn] at he
      simpa [pinhole, k1, M3.mulVec] using he

/-! ## C151 PnP with several cameras -/

/-- The pose that shows the points of the target plane on the opposite rays. -/
def twin (S : Iso) : Iso :=
  ⟨⟨-S.R.m00, -S.R.m01, S.R.m02, -S.R.m10, -S.R.m11, S.R.m12, -S.R.m20, -S.R.m21, S.R.m22⟩, -S.t⟩

theorem twin_rigid {S : Iso} (h : S.IsRigid) : (twin S).IsRigid := by
  have h' : S.R.IsRot := h
  have : (twin S).R = S.R * ⟨-1, 0, 0, 0, -1, 0, 0, 0, 1⟩ := by
    rw [M3.mul_def]; ext <;> simp [twin]
  show (twin S).R.IsRot
  rw [this]
  exact h'.mul (M3.IsRot.of_cols (by norm_num) (by norm_num) (by norm_num) (by norm_num) (by norm_num) (by norm_num)
    (by norm_num [M3.det]))

theorem twin_apply (S : Iso) (p : V3) (hp : p.z = 0) : (twin S).apply p = -S.apply p := by
  ext <;> simp [twin, Iso.apply, M3.mulVec, hp] <;> ring

theorem pinhole_neg (i : Intr) (p : V3) : pinhole i (-p) = pinhole i p := by
  ext <;> simp [pinhole, neg_div_neg_eq]

/-- For one camera there is, for every pose of a planar target, another pose with the same images. -/
theorem C151_negation (i : Intr) (cam T : Iso) (hcam : RigidMotion cam) (hT : RigidMotion T) : ∃ T' : Iso, RigidMotion T' ∧ T' ≠ T ∧
    ∀ k : Corr2, k.inTarget.z = 0 → staticError i cam T' k = staticError i cam T k ∧ staticDepth cam T' k = -staticDepth cam T k := by
  have hc := (rigid_iff _).2 hcam
  have ht := (rigid_iff _).2 hT
  have hS : (cam.inv * T).IsRigid := hc.inv.mul ht
  refine ⟨cam * twin (cam.inv * T), (rigid_iff _).1 (hc.mul (twin_rigid hS)), ?_, ?_⟩
  · intro h
    have h1 : twin (cam.inv * T) = cam.inv * T := by
      conv_rhs => rw [← h]
      rw [← Iso.mul_assoc, Iso.inv_mul hc, Iso.one_mul]
    have h2 : ∀ f : Iso → ℝ, f (twin (cam.inv * T)) = f (cam.inv * T) := fun f => by rw [h1]
    have a0 := h2 (fun x => x.R.m00); have a1 := h2 (fun x => x.R.m10); have a2 := h2 (fun x => x.R.m20)
    simp only [twin] at a0 a1 a2
    have h3 : (cam.inv * T).R.IsRot := hS
    have h4 := congrArg M3.m00 h3.1
    simp only [M3.mul_def, M3.tr, M3.one_def] at h4
    have b0 : (cam.inv * T).R.m00 = 0 := by linarith
    have b1 : (cam.inv * T).R.m10 = 0 := by linarith
    have b2 : (cam.inv * T).R.m20 = 0 := by linarith
    rw [b0, b1, b2] at h4
    norm_num at h4
  · intro k hk
    have : (cam.inv * (cam * twin (cam.inv * T))).apply k.inTarget = -(cam.inv * T).apply k.inTarget := by
      rw [← Iso.mul_assoc, Iso.inv_mul hc, Iso.one_mul, twin_apply _ _ hk]
    unfold staticError staticDepth
    rw [this, pinhole_neg]
    exact ⟨rfl, by simp⟩

/-- Such a run: the true pose is in front of the camera, the reported one behind it. -/
theorem C151_negation_run : ∃ (p : McPnpProblem) (res : McPnpResult) (T : Iso), mcPnp (idCeres Pose6) p = .ok res ∧
    RigidMotion T ∧ (∀ c ∈ p.baseToCamera, Representable c) ∧
    (∀ e ∈ staticErrors p.intr p.baseToCamera (fun _ _ => T) (oneImage p.observations p.baseToCamera.length), e = 0) ∧
    (∀ f ∈ oneImage p.observations p.baseToCamera.length, staticDepth (p.baseToCamera.getD f.cam 1) T f.corr = 1) ∧
    (∀ f ∈ oneImage p.observations p.baseToCamera.length,
      staticDepth (p.baseToCamera.getD f.cam 1) res.baseToTarget f.corr = -1) ∧
    SeesQuadrangle (p.observations.getD 0 []) ∧ res.finalCost = some 0 := by
  obtain ⟨p, hp⟩ : ∃ p : McPnpProblem, p = ⟨[⟨1, 1, 0, 0⟩], [1], [squareImage ⟨1, 1, 0, 0⟩ (shiftBy 0 0 1)],
    twin (shiftBy 0 0 1)⟩ := ⟨_, rfl⟩
  obtain ⟨res, h⟩ := C125_returns (idCeres Pose6) p (by rw [hp]; simp) (by rw [hp]; simp)
  have hg : Representable p.guess := by
    rw [hp]
    refine ⟨(rigid_iff _).1 (twin_rigid ((rigid_iff _).2 (shiftBy_rep _ _ _).1)), Or.inr ?_⟩
    have : rotAngle (twin (shiftBy 0 0 1)).R = Real.pi := by
      unfold rotAngle
      rw [Real.arccos_eq_pi]
      norm_num [twin, shiftBy]
    rw [this]
    have := Real.pi_gt_three
    calc (1 : ℝ) / 2 ^ 52 < 3 ^ 2 := by norm_num
      _ < Real.pi ^ 2 := by gcongr
  have hT := C34_multi_camera_pnp (idCeres Pose6) p res (fun _ _ => rfl) hg h
  have hcam : ∀ c ∈ p.baseToCamera, Representable c := by
    rw [hp]; intro c hc
    simp only [List.mem_singleton] at hc
    rw [hc]; exact .one
  have hfe : ∀ f ∈ oneImage p.observations p.baseToCamera.length, p.intr.getD f.cam ⟨0, 0, 0, 0⟩ = ⟨1, 1, 0, 0⟩ ∧
      p.baseToCamera.getD f.cam 1 = 1 ∧ f.corr.inTarget.z = 0 ∧
      f.corr.inImage = pinhole ⟨1, 1, 0, 0⟩ ((shiftBy 0 0 1).apply f.corr.inTarget) := by
    rw [hp]; intro f hf
    simp only [oneImage, squareImage, squarePoints, List.length_cons, List.length_nil, List.range_succ, List.range_zero, List.nil_append,
      List.flatMap_cons, List.flatMap_nil, List.append_nil, List.getD_cons_zero, List.map_cons, List.map_nil, List.mem_cons,
      List.not_mem_nil, or_false, zero_add] at hf
    rcases hf with rfl | rfl | rfl | rfl <;> exact ⟨rfl, rfl, rfl, rfl⟩
  have hne : oneImage p.observations p.baseToCamera.length ≠ [] := by
    rw [hp]; simp [oneImage, squareImage, squarePoints, List.range_succ]
  have hd1 : ∀ f ∈ oneImage p.observations p.baseToCamera.length,
      staticDepth (p.baseToCamera.getD f.cam 1) (shiftBy 0 0 1) f.corr = 1 := by
    intro f hf
    obtain ⟨-, h2, h3, -⟩ := hfe f hf
    rw [h2, staticDepth, Iso.inv_one, Iso.one_mul, shiftBy_apply, h3]; norm_num
  have hd2 : ∀ f ∈ oneImage p.observations p.baseToCamera.length,
      staticDepth (p.baseToCamera.getD f.cam 1) res.baseToTarget f.corr = -1 := by
    intro f hf
    obtain ⟨-, h2, h3, -⟩ := hfe f hf
    rw [h2, staticDepth, Iso.inv_one, Iso.one_mul, hT, hp, twin_apply _ _ h3, shiftBy_apply, V3.neg_z, h3]; norm_num
  refine ⟨p, res, shiftBy 0 0 1, h, (shiftBy_rep _ _ _).1, hcam, ?_, hd1, hd2, ?_, ?_⟩
  · rw [staticErrors, flatMap_zero]
    intro f hf
    obtain ⟨h1, h2, h3, h4⟩ := hfe f hf
    rw [staticError, diff2_zero, h1, h2, Iso.inv_one, Iso.one_mul, h4]
  · rw [hp]; exact squareImage_sees _ _
  · rw [C125_final _ p res h hcam (fun f hf => by rw [hd2 f hf]; norm_num), meanCost_eq_zero_iff]
    constructor
    · intro h0
      obtain ⟨f, hf⟩ := List.exists_mem_of_ne_nil _ hne
      have := List.flatMap_eq_nil_iff.1 h0 f hf
      simp [staticError, diff2] at this
    · rw [staticErrors, flatMap_zero]
      intro f hf
      obtain ⟨h1, h2, h3, h4⟩ := hfe f hf
      rw [staticError, diff2_zero, h1, h2, Iso.inv_one, Iso.one_mul, h4, hT, hp, twin_apply _ _ h3, pinhole_neg]

/-- **Full statement of C151:** if one of the cameras has a perfect image of four points of a planar target, no three on one
line, from outside its plane, the final cost of perfect images is zero exactly if the true pose is reported.

Proved for reported poses with all features in front of their cameras; without that it is wrong (`C151_negation`,
`C151_negation_run`). -/
theorem C151_partial (s : Ceres Pose6) (p : McPnpProblem) (res : McPnpResult) (h : mcPnp s p = .ok res)
    (hc : ∀ c ∈ p.baseToCamera, Representable c) (hr : RigidMotion res.baseToTarget) (T : Iso) (hT : RigidMotion T)
    (hdata : ∀ e ∈ staticErrors p.intr p.baseToCamera (fun _ _ => T) (oneImage p.observations p.baseToCamera.length), e = 0)
    (hz : ∀ f ∈ oneImage p.observations p.baseToCamera.length, 0 < staticDepth (p.baseToCamera.getD f.cam 1) T f.corr)
    (hz' : ∀ f ∈ oneImage p.observations p.baseToCamera.length,
      0 < staticDepth (p.baseToCamera.getD f.cam 1) res.baseToTarget f.corr) (c : Nat) (hcl : c < p.baseToCamera.length)
    (hfx : (p.intr.getD c ⟨0, 0, 0, 0⟩).fx ≠ 0) (hfy : (p.intr.getD c ⟨0, 0, 0, 0⟩).fy ≠ 0)
    (hcam : ((p.baseToCamera.getD c 1).inv * T).inv.t.z ≠ 0) (hq : SeesQuadrangle (p.observations.getD c [])) :
    res.finalCost = some 0 ↔ res.baseToTarget = T := by
  obtain ⟨ka, ma, kb, mb, kc, mc, kd, md, hquad⟩ := hq
  have mem : ∀ k ∈ p.observations.getD c [], (⟨c, 0, k⟩ : Feature) ∈ oneImage p.observations p.baseToCamera.length :=
    fun k hk => List.mem_flatMap.2 ⟨c, List.mem_range.2 hcl, List.mem_map.2 ⟨k, hk, rfl⟩⟩
  rw [C125_final s p res h hc (fun f hf => (hz' f hf).ne'), meanCost_eq_zero_iff]
  unfold staticErrors at hdata ⊢
  rw [flatMap_zero] at hdata ⊢
  constructor
  · rintro ⟨-, hzero⟩
    have hrc : (p.baseToCamera.getD c 1).IsRigid := by
      rw [getD_of_some (List.getElem?_eq_getElem hcl)]
      exact (hc _ (List.getElem_mem hcl)).rigid
    have key : ∀ k ∈ p.observations.getD c [], ((p.baseToCamera.getD c 1).inv * res.baseToTarget).apply k.inTarget =
        V3.smul ((((p.baseToCamera.getD c 1).inv * res.baseToTarget).apply k.inTarget).z /
          (((p.baseToCamera.getD c 1).inv * T).apply k.inTarget).z) (((p.baseToCamera.getD c 1).inv * T).apply k.inTarget) := by
      intro k hk
      refine pinhole_same hfx hfy (hz' _ (mem k hk)).ne' (hz _ (mem k hk)).ne' ?_
      exact (diff2_zero.1 (hzero _ (mem k hk))).trans (diff2_zero.1 (hdata _ (mem k hk))).symm
    have := planar_unique (hrc.inv.mul ((rigid_iff _).2 hr)) (hrc.inv.mul ((rigid_iff _).2 hT)) hquad hcam
      (div_pos (hz' _ (mem _ ma)) (hz _ (mem _ ma))) (key _ ma) (key _ mb) (key _ mc) (key _ md)
    have := congrArg ((p.baseToCamera.getD c 1) * ·) this
    simpa only [← Iso.mul_assoc, Iso.mul_inv hrc, Iso.one_mul] using this
  · intro he
    rw [he]
    refine ⟨?_, hdata⟩
    intro h0
    have := List.flatMap_eq_nil_iff.1 h0 _ (mem _ ma)
    simp [staticError, diff2] at this

/-! ## C152 Hand-eye calibration -/

theorem heFinish_cost {κ : Type} {s : Ceres Pose6} {p : HandEyeProblem κ} {pb : List (ResBlock Pose6)} {res : HandEyeResult}
    (h : heFinish s p pb = .ok res) : res.finalCost = costPerObs pb (s.solve pb (heInit p)) := by
  unfold heFinish at h
  simp only [Res.bind_ok_iff] at h
  obtain ⟨cov, -, h⟩ := h
  cases h
  rfl

theorem heFinal3 (s : Ceres Pose6) (p : HandEyeProblem Corr3) (res : HandEyeResult) (h : handEye3 s p = .ok res)
    (hm : MountsRepresentable p.observations) (hr : RigidMotion res.cameraMountToCamera) :
    res.finalCost = meanCost (reprojErrors3 res.cameraMountToCamera res.targetMountToTarget p.observations) := by
  obtain ⟨h0, h1, h2⟩ := heFinish_ok h
  rw [h2] at hr
  rw [h1, h2, ← C28_partial_3d p hm (s.solve (heBuild3 p) (heInit p)) ((poseCalToEigen_rigid_iff _).1
    (Iso.IsRigid.of_inv ((rigid_iff _).2 hr))), ← costPerObs_eq_meanCost]
  exact heFinish_cost h

theorem heFinal2 (s : Ceres Pose6) (p : HandEyeProblem Corr2) (res : HandEyeResult) (h : handEye2 s p = .ok res)
    (hm : MountsRepresentable p.observations) (hr : RigidMotion res.cameraMountToCamera)
    (hz : ∀ f ∈ features p.observations, (inCamera2 res.cameraMountToCamera res.targetMountToTarget f).z ≠ 0) :
    res.finalCost = meanCost (reprojErrors2 p.intr res.cameraMountToCamera res.targetMountToTarget p.observations) := by
  unfold handEye2 at h
  rw [Res.bind_ok_iff] at h
  obtain ⟨pb, hb, h⟩ := h
  obtain ⟨h0, h1, h2⟩ := heFinish_ok h
  rw [h1, h2] at hz ⊢
  rw [h2] at hr
  rw [← C28_partial p pb hb hm (s.solve pb (heInit p)) ((poseCalToEigen_rigid_iff _).1
    (Iso.IsRigid.of_inv ((rigid_iff _).2 hr))) hz, ← costPerObs_eq_meanCost]
  exact heFinish_cost h

/-- If the target has, in four observations, the same pose in the camera under two calibrations, and the two motions of the
robot between them have different axes, the calibrations are equal. -/
theorem handEye_unique {κ : Type} {X Y X' Y' : Iso} (hX : X.IsRigid) (hX' : X'.IsRigid) (hY' : Y'.IsRigid)
    {a b c d : Obs κ} (hrig : ∀ o ∈ [a, b, c, d], o.toCameraMount.IsRigid ∧ o.toTargetMount.IsRigid)
    (hax : AxesDiffer (mountMotion a b).R (mountMotion c d).R)
    (h : ∀ o ∈ [a, b, c, d], poseInCamera X' Y' o = poseInCamera X Y o) : X' = X ∧ Y' = Y := by
  have hC : ∀ o ∈ [a, b, c, d], (o.toCameraMount.inv * o.toTargetMount).IsRigid := fun o ho =>
    (hrig o ho).1.inv.mul (hrig o ho).2
  have comm : ∀ o ∈ [a, b, c, d], (X * X'.inv) * (o.toCameraMount.inv * o.toTargetMount) =
      (o.toCameraMount.inv * o.toTargetMount) * (Y * Y'.inv) := by
    intro o ho
    have := h o ho
    unfold poseInCamera at this
    have := congrArg (fun P => X * P * Y'.inv) this
    simp only [Iso.mul_assoc, Iso.mul_inv hY', Iso.mul_one] at this
    simp only [← Iso.mul_assoc, Iso.mul_inv hX, Iso.one_mul] at this ⊢
    simpa only [Iso.mul_assoc] using this
  have comm2 : ∀ o ∈ [a, b, c, d], ∀ o' ∈ [a, b, c, d], (X * X'.inv) * mountMotion o o' = mountMotion o o' * (X * X'.inv) := by
    intro o ho o' ho'
    have h1 := comm o ho
    have h2 := comm o' ho'
    have hr := hC o' ho'
    unfold mountMotion
    generalize o.toCameraMount.inv * o.toTargetMount = C at h1
    generalize o'.toCameraMount.inv * o'.toTargetMount = D at h2 hr
    have h3 : (Y * Y'.inv) * D.inv = D.inv * (X * X'.inv) := by
      have := congrArg (fun P => D.inv * P * D.inv) h2
      simp only [Iso.mul_assoc, Iso.mul_inv hr, Iso.mul_one] at this
      simp only [Iso.inv_mul_cancel_left hr] at this
      rw [Iso.mul_assoc, ← this]
    rw [← Iso.mul_assoc, h1, Iso.mul_assoc, h3, Iso.mul_assoc]
  have hrm : ∀ o ∈ [a, b, c, d], ∀ o' ∈ [a, b, c, d], (mountMotion o o').IsRigid := fun o ho o' ho' =>
    (hC o ho).mul (hC o' ho').inv
  have hone : X * X'.inv = 1 := commuting_trivial (hX.mul hX'.inv) (hrm a (by simp) b (by simp)) (hrm c (by simp) d (by simp)) hax
    (comm2 a (by simp) b (by simp)) (comm2 c (by simp) d (by simp))
  have hXX : X' = X := by
    have := congrArg (· * X') hone
    simpa only [Iso.mul_assoc, Iso.inv_mul hX', Iso.mul_one, Iso.one_mul, eq_comm] using this
  refine ⟨hXX, ?_⟩
  have := h a (by simp)
  rw [hXX] at this
  unfold poseInCamera at this
  have := congrArg (fun P => a.toTargetMount.inv * (a.toCameraMount * (X * P))) this
  simp only [Iso.mul_inv_cancel_left hX, Iso.mul_inv_cancel_left (hrig a (by simp)).1,
    Iso.inv_mul_cancel_left (hrig a (by simp)).2] at this
  exact this

theorem feature_mem {κ : Type} {obs : List (Obs κ)} {o : Obs κ} {c : κ} (ho : o ∈ obs) (hc : c ∈ o.corrs) :
    (o, c) ∈ features obs := List.mem_flatMap.2 ⟨o, ho, List.mem_map.2 ⟨c, hc, rfl⟩⟩

/-- Perfect 3D measurements of a triangle in four observations whose two motions turn the robot about different axes: the final
cost is zero exactly if the true calibration is reported. -/
theorem C152_unique_3d (s : Ceres Pose6) (p : HandEyeProblem Corr3) (res : HandEyeResult) (h : handEye3 s p = .ok res)
    (hm : MountsRepresentable p.observations) (hr : RigidMotion res.cameraMountToCamera)
    (hr' : RigidMotion res.targetMountToTarget) (X Y : Iso) (hX : RigidMotion X) (hY : RigidMotion Y)
    (hdata : ∀ f ∈ features p.observations, f.2.inImage = inCamera3 X Y f) (a b c d : Obs Corr3)
    (hobs : ∀ o ∈ [a, b, c, d], o ∈ p.observations ∧ SeesTriangle o)
    (hax : AxesDiffer (mountMotion a b).R (mountMotion c d).R) :
    res.finalCost = some 0 ↔ res.cameraMountToCamera = X ∧ res.targetMountToTarget = Y := by
  rw [heFinal3 s p res h hm hr, meanCost_eq_zero_iff, reprojErrors3, flatMap_zero]
  have rX := (rigid_iff _).2 hX
  have rY := (rigid_iff _).2 hY
  have rX' := (rigid_iff _).2 hr
  have rY' := (rigid_iff _).2 hr'
  have hrig : ∀ o ∈ [a, b, c, d], o.toCameraMount.IsRigid ∧ o.toTargetMount.IsRigid := fun o ho =>
    ⟨(hm o (hobs o ho).1).1.rigid, (hm o (hobs o ho).1).2.rigid⟩
  constructor
  · rintro ⟨-, hz⟩
    refine handEye_unique rX rX' rY' hrig hax fun o ho => ?_
    obtain ⟨u, hu, v, hv, w, hw, htri⟩ := (hobs o ho).2
    have key : ∀ k ∈ o.corrs, (poseInCamera res.cameraMountToCamera res.targetMountToTarget o).apply k.inTarget =
        (poseInCamera X Y o).apply k.inTarget := fun k hk =>
      (diff3_zero.1 (hz _ (feature_mem (hobs o ho).1 hk))).trans (hdata _ (feature_mem (hobs o ho).1 hk))
    have hC := (hrig o ho).1.inv
    have hT := (hrig o ho).2
    exact Iso.IsRigid.eq_of_triangle (rX'.inv.mul (hC.mul (hT.mul rY'))) (rX.inv.mul (hC.mul (hT.mul rY))) htri (key u hu)
      (key v hv) (key w hw)
  · rintro ⟨rfl, rfl⟩
    refine ⟨?_, fun f hf => diff3_zero.2 (hdata f hf).symm⟩
    obtain ⟨u, hu, -⟩ := (hobs a (by simp)).2
    intro h0
    have := List.flatMap_eq_nil_iff.1 h0 _ (feature_mem (hobs a (by simp)).1 hu)
    simp [diff3] at this

/-- The same for perfect images of a planar target, with all features in front of the camera. -/
theorem C152_unique (s : Ceres Pose6) (p : HandEyeProblem Corr2) (res : HandEyeResult) (h : handEye2 s p = .ok res)
    (hm : MountsRepresentable p.observations) (hr : RigidMotion res.cameraMountToCamera)
    (hr' : RigidMotion res.targetMountToTarget) (hfx : p.intr.fx ≠ 0) (hfy : p.intr.fy ≠ 0) (X Y : Iso) (hX : RigidMotion X)
    (hY : RigidMotion Y) (hdata : ∀ f ∈ features p.observations, f.2.inImage = pinhole p.intr (inCamera2 X Y f))
    (hz : ∀ f ∈ features p.observations, 0 < (inCamera2 X Y f).z)
    (hz' : ∀ f ∈ features p.observations, 0 < (inCamera2 res.cameraMountToCamera res.targetMountToTarget f).z)
    (a b c d : Obs Corr2)
    (hobs : ∀ o ∈ [a, b, c, d], o ∈ p.observations ∧ SeesQuadrangle o.corrs ∧ (poseInCamera X Y o).inv.t.z ≠ 0)
    (hax : AxesDiffer (mountMotion a b).R (mountMotion c d).R) :
    res.finalCost = some 0 ↔ res.cameraMountToCamera = X ∧ res.targetMountToTarget = Y := by
  rw [heFinal2 s p res h hm hr (fun f hf => (hz' f hf).ne'), meanCost_eq_zero_iff, reprojErrors2, flatMap_zero]
  have rX := (rigid_iff _).2 hX
  have rY := (rigid_iff _).2 hY
  have rX' := (rigid_iff _).2 hr
  have rY' := (rigid_iff _).2 hr'
  have hrig : ∀ o ∈ [a, b, c, d], o.toCameraMount.IsRigid ∧ o.toTargetMount.IsRigid := fun o ho =>
    ⟨(hm o (hobs o ho).1).1.rigid, (hm o (hobs o ho).1).2.rigid⟩
  constructor
  · rintro ⟨-, hzero⟩
    refine handEye_unique rX rX' rY' hrig hax fun o ho => ?_
    obtain ⟨ho1, ⟨u, hu, v, hv, w, hw, x, hx, hq⟩, hcam⟩ := hobs o ho
    have key : ∀ k ∈ o.corrs, (poseInCamera res.cameraMountToCamera res.targetMountToTarget o).apply k.inTarget =
        V3.smul (((poseInCamera res.cameraMountToCamera res.targetMountToTarget o).apply k.inTarget).z /
          ((poseInCamera X Y o).apply k.inTarget).z) ((poseInCamera X Y o).apply k.inTarget) := fun k hk =>
      pinhole_same hfx hfy (hz' _ (feature_mem ho1 hk)).ne' (hz _ (feature_mem ho1 hk)).ne'
        ((diff2_zero.1 (hzero _ (feature_mem ho1 hk))).trans (hdata _ (feature_mem ho1 hk)))
    have hC := (hrig o ho).1.inv
    have hT := (hrig o ho).2
    exact planar_unique (rX'.inv.mul (hC.mul (hT.mul rY'))) (rX.inv.mul (hC.mul (hT.mul rY))) hq hcam
      (div_pos (hz' _ (feature_mem ho1 hu)) (hz _ (feature_mem ho1 hu))) (key u hu) (key v hv) (key w hw) (key x hx)
  · rintro ⟨rfl, rfl⟩
    refine ⟨?_, fun f hf => diff2_zero.2 (hdata f hf).symm⟩
    obtain ⟨-, ⟨u, hu, -⟩, -⟩ := hobs a (by simp)
    intro h0
    have := List.flatMap_eq_nil_iff.1 h0 _ (feature_mem (hobs a (by simp)).1 hu)
    simp [diff2] at this

/-! ### Example -/

/-- Quarter turns about the x and the z axis. -/
def quarterX : Iso := ⟨⟨1, 0, 0, 0, 0, -1, 0, 1, 0⟩, ⟨1, 2, 3⟩⟩
def quarterZ : Iso := ⟨⟨0, -1, 0, 1, 0, 0, 0, 0, 1⟩, ⟨3, 1, 2⟩⟩

theorem quarter_rep {T : Iso} (h : T.IsRigid) (ht : T.R.m00 + T.R.m11 + T.R.m22 = 1) : Representable T := by
  refine ⟨(rigid_iff _).1 h, Or.inr ?_⟩
  have : rotAngle T.R = Real.pi / 2 := by
    unfold rotAngle
    rw [ht]; norm_num
  rw [this]
  have := Real.pi_gt_three
  calc (1 : ℝ) / 2 ^ 52 < (3 / 2) ^ 2 := by norm_num
    _ < (Real.pi / 2) ^ 2 := by gcongr

theorem quarterX_rep : Representable quarterX :=
  quarter_rep (M3.IsRot.of_cols (by norm_num [quarterX]) (by norm_num [quarterX]) (by norm_num [quarterX]) (by norm_num [quarterX])
    (by norm_num [quarterX]) (by norm_num [quarterX]) (by norm_num [quarterX, M3.det])) (by norm_num [quarterX])

theorem quarterZ_rep : Representable quarterZ :=
  quarter_rep (M3.IsRot.of_cols (by norm_num [quarterZ]) (by norm_num [quarterZ]) (by norm_num [quarterZ]) (by norm_num [quarterZ])
    (by norm_num [quarterZ]) (by norm_num [quarterZ]) (by norm_num [quarterZ, M3.det])) (by norm_num [quarterZ])

theorem heFinish_id_returns {κ α : Type} (p : HandEyeProblem κ) (hlen : p.labels.length = 6) (l : List α) (hl : l ≠ [])
    (g : α → ResBlock Pose6) (hg : ∀ a ∈ l, (g a).blocks = [heCam, heTgt]) :
    ∃ res, heFinish (idCeres Pose6) p (l.map g) = .ok res := by
  have hperm := usedBlocks_const l hl g [heCam, heTgt] (by decide) hg
  obtain ⟨pb, hpb⟩ : ∃ pb, pb = l.map g := ⟨_, rfl⟩
  rw [← hpb] at hperm ⊢
  unfold heFinish
  obtain ⟨cov, hc⟩ := computeCovariance_returns
    (cs := (idCeres Pose6).covSolver pb ((idCeres Pose6).solve pb (heInit p)) 6) (blocks := (idCeres Pose6).order pb)
    (names := SMap.insert (SMap.insert [] heCam (poseLabels p.labels p.labelCamera)) heTgt
      (poseLabels p.labels p.labelTarget)) (masks := [])
    (by
      show SMap.size _ = (usedBlocks pb).length
      rw [hperm.length_eq]; rfl)
    (by
      intro b hb'
      have hu : b ∈ usedBlocks pb := hb'
      refine ⟨poseLabels p.labels (if b = heCam then p.labelCamera else p.labelTarget), ?_, ?_⟩
      · have := hperm.subset hu
        simp only [List.mem_cons, List.not_mem_nil, or_false] at this
        rw [SMap.find_insert, SMap.find_insert]
        rcases this with rfl | rfl
        · rw [if_neg (by decide), if_pos rfl, if_pos rfl]
        · rw [if_pos rfl, if_neg (by decide)]
      · simp [Ceres.covSolver, hu, poseLabels, hlen])
    rfl rfl
  exact ⟨_, (Res.bind_ok_iff _ _ _).2 ⟨cov, hc, rfl⟩⟩

/-- An observation with perfect data of the square. -/
noncomputable def squareObs3 (X Y A : Iso) : Obs Corr3 := ⟨squarePoints.map fun q => ⟨Spec.targetInCamera X A 1 Y q, q⟩, A, 1⟩

theorem squareObs3_sees (X Y A : Iso) : SeesTriangle (squareObs3 X Y A) :=
  ⟨⟨_, ⟨0, 0, 0⟩⟩, List.mem_map.2 ⟨⟨0, 0, 0⟩, by simp [squarePoints], rfl⟩,
    ⟨_, ⟨1, 0, 0⟩⟩, List.mem_map.2 ⟨⟨1, 0, 0⟩, by simp [squarePoints], rfl⟩,
    ⟨_, ⟨1, 1, 0⟩⟩, List.mem_map.2 ⟨⟨1, 1, 0⟩, by simp [squarePoints], rfl⟩, square_quadrangle.abc⟩

theorem quarter_axes : AxesDiffer (quarterX.inv * 1 * ((1 : Iso).inv * 1).inv).R (quarterZ.inv * 1 * ((1 : Iso).inv * 1).inv).R := by
  intro h
  have := congrArg V3.y h
  rw [Iso.inv_one, Iso.mul_one, Iso.mul_one, Iso.mul_one, Iso.inv_one, Iso.mul_one, Iso.mul_one] at this
  norm_num [turnVector, V3.cross, quarterX, quarterZ, Iso.inv, M3.tr] at this

/-- A run on three observations with quarter turns about two axes. -/
example : ∃ (p : HandEyeProblem Corr3) (res : HandEyeResult) (X Y : Iso) (a b c d : Obs Corr3),
    handEye3 (idCeres Pose6) p = .ok res ∧ MountsRepresentable p.observations ∧ RigidMotion res.cameraMountToCamera ∧
    RigidMotion res.targetMountToTarget ∧ RigidMotion X ∧ RigidMotion Y ∧
    (∀ f ∈ features p.observations, f.2.inImage = inCamera3 X Y f) ∧
    (∀ o ∈ [a, b, c, d], o ∈ p.observations ∧ SeesTriangle o) ∧ AxesDiffer (mountMotion a b).R (mountMotion c d).R := by
  obtain ⟨ob, hob⟩ : ∃ ob : Iso → Obs Corr3, ob = squareObs3 quarterZ quarterX := ⟨_, rfl⟩
  obtain ⟨p, hp⟩ : ∃ p : HandEyeProblem Corr3, p = ⟨[ob 1, ob quarterX, ob quarterZ], ⟨1, 1, 0, 0⟩, 1, 1, "c", "t",
    labelsIsometry3d⟩ := ⟨_, rfl⟩
  have hpo : p.observations = [ob 1, ob quarterX, ob quarterZ] := by rw [hp]
  obtain ⟨res, h⟩ : ∃ res, handEye3 (idCeres Pose6) p = .ok res := by
    unfold handEye3
    rw [heBuild3_eq]
    refine heFinish_id_returns p (by rw [hp]; rfl) _ ?_ _ (fun _ _ => rfl)
    rw [hpo, hob]; simp [features, squareObs3, squarePoints]
  obtain ⟨h1, h2⟩ := C34_hand_eye_3d (idCeres Pose6) p res (fun _ _ => rfl) (by rw [hp]; exact .one) (by rw [hp]; exact .one) h
  refine ⟨p, res, quarterZ, quarterX, ob quarterX, ob 1, ob quarterZ, ob 1, h, ?_, ?_, ?_, quarterZ_rep.1, quarterX_rep.1, ?_, ?_, ?_⟩
  · rw [hpo, hob]; intro o ho
    simp only [List.mem_cons, List.not_mem_nil, or_false] at ho
    rcases ho with rfl | rfl | rfl
    · exact ⟨.one, .one⟩
    · exact ⟨quarterX_rep, .one⟩
    · exact ⟨quarterZ_rep, .one⟩
  · rw [h1, hp]; exact Representable.one.1
  · rw [h2, hp]; exact Representable.one.1
  · rw [hpo, hob]; intro f hf
    obtain ⟨o, ho, hf⟩ := List.mem_flatMap.1 hf
    obtain ⟨k, hk, rfl⟩ := List.mem_map.1 hf
    simp only [List.mem_cons, List.not_mem_nil, or_false] at ho
    rcases ho with rfl | rfl | rfl <;>
    · obtain ⟨q, -, rfl⟩ := List.mem_map.1 hk
      rfl
  · rw [hpo, hob]; intro o ho
    simp only [List.mem_cons, List.not_mem_nil, or_false] at ho
    rcases ho with rfl | rfl | rfl | rfl <;> exact ⟨by simp, squareObs3_sees _ _ _⟩
  · rw [hob]; exact quarter_axes

/-- A perfect image of the square. -/
noncomputable def squareObs2 (X Y A : Iso) : Obs Corr2 := ⟨squareImage ⟨1, 1, 0, 0⟩ (X.inv * (A.inv * (1 * Y))), A, 1⟩

/-- A perfect image of the square at `(10, 10, 10)`, with arbitrary poses of the mounts. -/
noncomputable def squareView (A B : Iso) : Obs Corr2 := ⟨squareImage ⟨1, 1, 0, 0⟩ (A.inv * (B * shiftBy 10 10 10)), A, B⟩

/-- A run on three images of a square, with quarter turns of the mounts against each other about two axes; the target is
reported at `(k, k, k)`. -/
theorem square_hand_eye_at (k : ℝ) (hk : 9 < k) (A B : Nat → Iso) (hA : ∀ n, Representable (A n)) (hB : ∀ n, Representable (B n))
    (h0 : (A 0).inv * B 0 = 1) (h1 : (A 1).inv * B 1 = quarterX) (h2 : (A 2).inv * B 2 = quarterZ) :
    ∃ (p : HandEyeProblem Corr2) (res : HandEyeResult),
    p.observations = [squareView (A 0) (B 0), squareView (A 1) (B 1), squareView (A 2) (B 2)] ∧ p.intr = ⟨1, 1, 0, 0⟩ ∧
    handEye2 (idCeres Pose6) p = .ok res ∧ MountsRepresentable p.observations ∧ RigidMotion res.cameraMountToCamera ∧
    RigidMotion res.targetMountToTarget ∧
    (∀ f ∈ features p.observations, f.2.inImage = pinhole p.intr (inCamera2 1 (shiftBy 10 10 10) f)) ∧
    (∀ f ∈ features p.observations, 0 < (inCamera2 1 (shiftBy 10 10 10) f).z) ∧
    (∀ f ∈ features p.observations, 0 < (inCamera2 res.cameraMountToCamera res.targetMountToTarget f).z) ∧
    (∀ n, n < 3 → squareView (A n) (B n) ∈ p.observations ∧ SeesQuadrangle (squareView (A n) (B n)).corrs ∧
      (poseInCamera 1 (shiftBy 10 10 10) (squareView (A n) (B n))).inv.t.z ≠ 0) ∧
    AxesDiffer (mountMotion (squareView (A 1) (B 1)) (squareView (A 0) (B 0))).R
      (mountMotion (squareView (A 2) (B 2)) (squareView (A 0) (B 0))).R ∧
    res.cameraMountToCamera = 1 ∧ res.targetMountToTarget = shiftBy k k k := by
  obtain ⟨C, hC⟩ : ∃ C : Nat → Iso, C = fun n => (A n).inv * B n := ⟨_, rfl⟩
  have C0 : C 0 = 1 := by rw [hC]; exact h0
  have C1 : C 1 = quarterX := by rw [hC]; exact h1
  have C2 : C 2 = quarterZ := by rw [hC]; exact h2
  obtain ⟨p, hp⟩ : ∃ p : HandEyeProblem Corr2, p = ⟨[squareView (A 0) (B 0), squareView (A 1) (B 1), squareView (A 2) (B 2)],
    ⟨1, 1, 0, 0⟩, shiftBy k k k, 1, "c", "t", labelsIsometry3d⟩ := ⟨_, rfl⟩
  have hpo : p.observations = [squareView (A 0) (B 0), squareView (A 1) (B 1), squareView (A 2) (B 2)] := by rw [hp]
  have hmem : ∀ o ∈ p.observations, ∃ n, n < 3 ∧ o = squareView (A n) (B n) := by
    rw [hpo]; intro o ho
    simp only [List.mem_cons, List.not_mem_nil, or_false] at ho
    rcases ho with rfl | rfl | rfl
    · exact ⟨0, by norm_num, rfl⟩
    · exact ⟨1, by norm_num, rfl⟩
    · exact ⟨2, by norm_num, rfl⟩
  have hfeat : ∀ f ∈ features p.observations, ∃ n q, n < 3 ∧ q ∈ squarePoints ∧ f.1 = squareView (A n) (B n) ∧
      f.2 = ⟨pinhole ⟨1, 1, 0, 0⟩ (((A n).inv * (B n * shiftBy 10 10 10)).apply q), q⟩ := by
    intro f hf
    obtain ⟨o, ho, hf⟩ := List.mem_flatMap.1 hf
    obtain ⟨c, hc, rfl⟩ := List.mem_map.1 hf
    obtain ⟨n, hn, rfl⟩ := hmem o ho
    obtain ⟨q, hq, rfl⟩ := List.mem_map.1 hc
    exact ⟨n, q, hn, hq, rfl, rfl⟩
  have hm : MountsRepresentable p.observations := by
    intro o ho
    obtain ⟨n, -, rfl⟩ := hmem o ho
    exact ⟨hA n, hB n⟩
  have hsee : ∀ n (Y : Iso), (1 : Iso).inv * ((A n).inv * (B n * Y)) = C n * Y := by
    intro n Y
    rw [Iso.inv_one, Iso.one_mul, hC, Iso.mul_assoc]
  have hz : ∀ k : ℝ, 9 < k → ∀ f ∈ features p.observations, 0 < (inCamera2 1 (shiftBy k k k) f).z := by
    intro k hk f hf
    obtain ⟨n, q, hn, hq, h1, h2⟩ := hfeat f hf
    rw [inCamera2, Spec.targetInCamera, h1, h2]
    show 0 < (((1 : Iso).inv * ((A n).inv * (B n * shiftBy k k k))).apply q).z
    rw [hsee, Iso.apply_mul, shiftBy_apply]
    simp only [squarePoints, List.mem_cons, List.not_mem_nil, or_false] at hq
    interval_cases n
    · rw [C0]
      rcases hq with rfl | rfl | rfl | rfl <;> norm_num [Iso.apply, M3.mulVec, Iso.one_def, M3.one_def] <;> linarith
    · rw [C1]
      rcases hq with rfl | rfl | rfl | rfl <;> norm_num [quarterX, Iso.apply, M3.mulVec] <;> linarith
    · rw [C2]
      rcases hq with rfl | rfl | rfl | rfl <;> norm_num [quarterZ, Iso.apply, M3.mulVec] <;> linarith
  have e0 : heInit p heCam = poseEigenToCal 1 := by rw [hp]; simp [heInit, heCam, heTgt]
  have e1 : heInit p heTgt = poseEigenToCal (shiftBy k k k) := by rw [hp]; simp [heInit]
  obtain ⟨res, h⟩ : ∃ res, handEye2 (idCeres Pose6) p = .ok res := by
    unfold handEye2
    rcases heBuild2_cases p with ⟨-, h'⟩ | ⟨⟨f, hf, hv⟩, -⟩
    · rw [h', Res.ok_bind]
      refine heFinish_id_returns p (by rw [hp]; rfl) _ ?_ _ (fun _ _ => rfl)
      rw [hpo]; simp [features, squareView, squareImage, squarePoints]
    · exfalso
      apply hv
      unfold heVisible
      have hmf := hm f.1 (by
        obtain ⟨o, ho, hf⟩ := List.mem_flatMap.1 hf
        obtain ⟨c, hc, rfl⟩ := List.mem_map.1 hf
        exact ho)
      have hzf := hz k hk f hf
      rw [e0, e1, targetPointInCamera_eq hmf.1.inv hmf.2, Representable.one.roundtrip, (shiftBy_rep _ _ _).roundtrip]
      simpa [inCamera2, Spec.targetInCamera, Iso.inv_one, Iso.apply_mul] using hzf
  obtain ⟨r1, r2⟩ := C34_hand_eye_2d (idCeres Pose6) p res (fun _ _ => rfl) (by rw [hp]; exact .one)
    (by rw [hp]; exact shiftBy_rep _ _ _) h
  refine ⟨p, res, hpo, by rw [hp], h, hm, ?_, ?_, ?_, hz 10 (by norm_num), ?_, ?_, ?_, by rw [r1, hp], by rw [r2, hp]⟩
  · rw [r1, hp]; exact Representable.one.1
  · rw [r2, hp]; exact (shiftBy_rep _ _ _).1
  · intro f hf
    obtain ⟨n, q, hn, hq, h1, h2⟩ := hfeat f hf
    have hi : p.intr = ⟨1, 1, 0, 0⟩ := by rw [hp]
    rw [hi, inCamera2, Spec.targetInCamera, h1, h2, Iso.inv_one, Iso.one_mul]
    rfl
  · rw [r1, r2]
    have : p.cameraGuess = 1 ∧ p.targetGuess = shiftBy k k k := by rw [hp]; exact ⟨rfl, rfl⟩
    rw [this.1, this.2]
    exact hz k hk
  · intro n hn
    refine ⟨by rw [hpo]; interval_cases n <;> simp, squareImage_sees _ _, ?_⟩
    show ((1 : Iso).inv * ((A n).inv * (B n * shiftBy 10 10 10))).inv.t.z ≠ 0
    rw [hsee]
    interval_cases n
    · rw [C0]; norm_num [Iso.inv, M3.tr, M3.mulVec, shiftBy, Iso.mul_def, M3.mul_def, Iso.one_def, M3.one_def]
    · rw [C1]; norm_num [Iso.inv, M3.tr, M3.mulVec, quarterX, shiftBy, Iso.mul_def, M3.mul_def, Iso.one_def, M3.one_def]
    · rw [C2]; norm_num [Iso.inv, M3.tr, M3.mulVec, quarterZ, shiftBy, Iso.mul_def, M3.mul_def, Iso.one_def, M3.one_def]
  · intro h
    have := congrArg V3.y h
    simp only [mountMotion, squareView, h0, h1, h2, Iso.inv_one, Iso.mul_one] at this
    norm_num [turnVector, V3.cross, quarterX, quarterZ] at this

/-- A run on three images of a square, with quarter turns of the mounts against each other about two axes; the guess is wrong. -/
theorem square_hand_eye (A B : Nat → Iso) (hA : ∀ n, Representable (A n)) (hB : ∀ n, Representable (B n))
    (h0 : (A 0).inv * B 0 = 1) (h1 : (A 1).inv * B 1 = quarterX) (h2 : (A 2).inv * B 2 = quarterZ) :
    ∃ (p : HandEyeProblem Corr2) (res : HandEyeResult),
    p.observations = [squareView (A 0) (B 0), squareView (A 1) (B 1), squareView (A 2) (B 2)] ∧ p.intr = ⟨1, 1, 0, 0⟩ ∧
    handEye2 (idCeres Pose6) p = .ok res ∧ MountsRepresentable p.observations ∧ RigidMotion res.cameraMountToCamera ∧
    RigidMotion res.targetMountToTarget ∧
    (∀ f ∈ features p.observations, f.2.inImage = pinhole p.intr (inCamera2 1 (shiftBy 10 10 10) f)) ∧
    (∀ f ∈ features p.observations, 0 < (inCamera2 1 (shiftBy 10 10 10) f).z) ∧
    (∀ f ∈ features p.observations, 0 < (inCamera2 res.cameraMountToCamera res.targetMountToTarget f).z) ∧
    (∀ n, n < 3 → squareView (A n) (B n) ∈ p.observations ∧ SeesQuadrangle (squareView (A n) (B n)).corrs ∧
      (poseInCamera 1 (shiftBy 10 10 10) (squareView (A n) (B n))).inv.t.z ≠ 0) ∧
    AxesDiffer (mountMotion (squareView (A 1) (B 1)) (squareView (A 0) (B 0))).R
      (mountMotion (squareView (A 2) (B 2)) (squareView (A 0) (B 0))).R := by
  obtain ⟨p, res, a1, a2, a3, a4, a5, a6, a7, a8, a9, a10, a11, -⟩ := square_hand_eye_at 20 (by norm_num) A B hA hB h0 h1 h2
  exact ⟨p, res, a1, a2, a3, a4, a5, a6, a7, a8, a9, a10, a11⟩

/-- A camera on the wrist that makes two quarter turns. -/
example : ∃ (p : HandEyeProblem Corr2) (res : HandEyeResult) (X Y : Iso) (a b c d : Obs Corr2),
    handEye2 (idCeres Pose6) p = .ok res ∧ MountsRepresentable p.observations ∧ RigidMotion res.cameraMountToCamera ∧
    RigidMotion res.targetMountToTarget ∧ p.intr.fx ≠ 0 ∧ p.intr.fy ≠ 0 ∧ RigidMotion X ∧ RigidMotion Y ∧
    (∀ f ∈ features p.observations, f.2.inImage = pinhole p.intr (inCamera2 X Y f)) ∧
    (∀ f ∈ features p.observations, 0 < (inCamera2 X Y f).z) ∧
    (∀ f ∈ features p.observations, 0 < (inCamera2 res.cameraMountToCamera res.targetMountToTarget f).z) ∧
    (∀ o ∈ [a, b, c, d], o ∈ p.observations ∧ SeesQuadrangle o.corrs ∧ (poseInCamera X Y o).inv.t.z ≠ 0) ∧
    AxesDiffer (mountMotion a b).R (mountMotion c d).R := by
  obtain ⟨p, res, -, hi, h, hm, r1, r2, hd, hz, hz', hq, hax⟩ := square_hand_eye
    (fun n => if n = 0 then 1 else if n = 1 then quarterX.inv else quarterZ.inv) (fun _ => 1)
    (fun n => by split_ifs; exacts [.one, quarterX_rep.inv, quarterZ_rep.inv]) (fun _ => .one)
    (by simp [Iso.inv_one, Iso.mul_one]) (by simp [Iso.mul_one, Iso.inv_inv quarterX_rep.rigid])
    (by simp [Iso.mul_one, Iso.inv_inv quarterZ_rep.rigid])
  refine ⟨p, res, 1, shiftBy 10 10 10, _, _, _, _, h, hm, r1, r2, by rw [hi]; norm_num, by rw [hi]; norm_num, Representable.one.1,
    (shiftBy_rep _ _ _).1, hd, hz, hz', ?_, hax⟩
  intro o ho
  simp only [List.mem_cons, List.not_mem_nil, or_false] at ho
  rcases ho with rfl | rfl | rfl | rfl
  · exact hq 1 (by norm_num)
  · exact hq 0 (by norm_num)
  · exact hq 2 (by norm_num)
  · exact hq 0 (by norm_num)

/-! ## C153 Directions that data do not determine -/

/-- The calibrated camera mount transform moved by `k` along `a`, a direction in the camera mount. -/
def movedBy (k : ℝ) (a : V3) (X : Iso) : Iso := ⟨X.R, X.t + V3.smul k a⟩

theorem handEye_flat {κ : Type} {obs : List (Obs κ)}
    (hrig : ∀ o ∈ obs, o.toCameraMount.IsRigid ∧ o.toTargetMount.IsRigid) {a : V3}
    (hfix : ∀ o ∈ obs, ∀ o' ∈ obs, (mountMotion o o').R.mulVec a = a) {X Y : Iso} (hY : Y.IsRigid) (k : ℝ) :
    ∃ Y' : Iso, Y'.IsRigid ∧ Y'.R = Y.R ∧ ∀ o ∈ obs, poseInCamera (movedBy k a X) Y' o = poseInCamera X Y o := by
  cases obs with
  | nil => exact ⟨Y, hY, rfl, by simp⟩
  | cons o₀ os =>
    have hC : ∀ o ∈ o₀ :: os, (o.toCameraMount.inv * o.toTargetMount).IsRigid := fun o ho =>
      (hrig o ho).1.inv.mul (hrig o ho).2
    obtain ⟨Z, hZ⟩ : ∃ Z : Iso, Z = ⟨1, V3.smul k a⟩ := ⟨_, rfl⟩
    have rZ : Z.IsRigid := by rw [hZ]; exact M3.IsRot.one
    have hmov : movedBy k a X = Z * X := by
      rw [hZ, Iso.mul_def]
      ext1
      · rw [M3.one_mul]; rfl
      · ext <;> simp [movedBy]
    have hcomm : ∀ o ∈ o₀ :: os, mountMotion o o₀ * Z = Z * mountMotion o o₀ := by
      intro o ho
      have h1 := hfix o ho o₀ (by simp)
      generalize mountMotion o o₀ = M at h1
      have h2 : M.R.mulVec (V3.smul k a) = V3.smul k a := by
        have hx := congrArg V3.x h1; have hy := congrArg V3.y h1; have hz := congrArg V3.z h1
        simp only [M3.mulVec] at hx hy hz
        ext <;> simp only [M3.mulVec, V3.smul]
        · linear_combination k * hx
        · linear_combination k * hy
        · linear_combination k * hz
      rw [hZ, Iso.mul_def, Iso.mul_def]
      ext1
      · rw [M3.mul_one, M3.one_mul]
      · simp only [h2]
        ext <;> simp [add_comm]
    obtain ⟨C0, hC0⟩ : ∃ C0, C0 = o₀.toCameraMount.inv * o₀.toTargetMount := ⟨_, rfl⟩
    have rC0 : C0.IsRigid := by rw [hC0]; exact hC o₀ (by simp)
    refine ⟨C0.inv * (Z * (C0 * Y)), rC0.inv.mul (rZ.mul (rC0.mul hY)), ?_, fun o ho => ?_⟩
    · rw [hZ]
      show C0.inv.R * (1 * (C0.R * Y.R)) = Y.R
      rw [M3.one_mul, ← M3.mul_assoc]
      show (C0.inv * C0).R * Y.R = Y.R
      rw [Iso.inv_mul rC0]
      exact M3.one_mul _
    have hc := hcomm o ho
    unfold mountMotion at hc
    rw [← hC0] at hc
    unfold poseInCamera
    rw [hmov, Iso.mul_inv_rev rZ]
    have e1 : ∀ W : Iso, o.toCameraMount.inv * (o.toTargetMount * W) = o.toCameraMount.inv * o.toTargetMount * W := fun W => by
      rw [Iso.mul_assoc]
    rw [e1, e1]
    generalize o.toCameraMount.inv * o.toTargetMount = C at hc
    rw [← Iso.mul_assoc C, ← Iso.mul_assoc (C * C0.inv), hc, Iso.mul_assoc Z, Iso.mul_assoc, Iso.inv_mul_cancel_left rZ, Iso.mul_assoc C,
      Iso.inv_mul_cancel_left rC0]

/-- If every motion of the robot between the observations leaves a direction of the camera mount unchanged, moving the
calibrated camera along that direction by any distance, with a suitable target pose, leaves all reprojection errors
unchanged. -/
theorem C153_flat (i : Intr) (obs : List (Obs Corr2)) (hm : ∀ o ∈ obs, RigidMotion o.toCameraMount ∧ RigidMotion o.toTargetMount)
    (a : V3) (hfix : ∀ o ∈ obs, ∀ o' ∈ obs, (mountMotion o o').R.mulVec a = a) (X Y : Iso) (hY : RigidMotion Y) (k : ℝ) :
    ∃ Y' : Iso, RigidMotion Y' ∧ reprojErrors2 i (movedBy k a X) Y' obs = reprojErrors2 i X Y obs ∧
      ∀ f ∈ features obs, inCamera2 (movedBy k a X) Y' f = inCamera2 X Y f := by
  obtain ⟨Y', h1, -, h2⟩ := handEye_flat (fun o ho => ⟨(rigid_iff _).2 (hm o ho).1, (rigid_iff _).2 (hm o ho).2⟩) hfix
    (X := X) ((rigid_iff _).2 hY) k
  have h3 : ∀ f ∈ features obs, inCamera2 (movedBy k a X) Y' f = inCamera2 X Y f := by
    intro f hf
    obtain ⟨o, ho, hf⟩ := List.mem_flatMap.1 hf
    obtain ⟨c, -, rfl⟩ := List.mem_map.1 hf
    exact congrArg (fun T => Iso.apply T c.inTarget) (h2 o ho)
  refine ⟨Y', (rigid_iff _).1 h1, ?_, h3⟩
  unfold reprojErrors2
  exact flatMap_congr' fun f hf => by rw [h3 f hf]

theorem C153_flat_3d (obs : List (Obs Corr3)) (hm : ∀ o ∈ obs, RigidMotion o.toCameraMount ∧ RigidMotion o.toTargetMount)
    (a : V3) (hfix : ∀ o ∈ obs, ∀ o' ∈ obs, (mountMotion o o').R.mulVec a = a) (X Y : Iso) (hY : RigidMotion Y) (k : ℝ) :
    ∃ Y' : Iso, RigidMotion Y' ∧ reprojErrors3 (movedBy k a X) Y' obs = reprojErrors3 X Y obs := by
  obtain ⟨Y', h1, -, h2⟩ := handEye_flat (fun o ho => ⟨(rigid_iff _).2 (hm o ho).1, (rigid_iff _).2 (hm o ho).2⟩) hfix
    (X := X) ((rigid_iff _).2 hY) k
  refine ⟨Y', (rigid_iff _).1 h1, ?_⟩
  unfold reprojErrors3
  refine flatMap_congr' fun f hf => ?_
  obtain ⟨o, ho, hf⟩ := List.mem_flatMap.1 hf
  obtain ⟨c, -, rfl⟩ := List.mem_map.1 hf
  have : inCamera3 (movedBy k a X) Y' (o, c) = inCamera3 X Y (o, c) :=
    congrArg (fun T => Iso.apply T c.inTarget) (h2 o ho)
  rw [this]

/-- Observations between which the robot only turns about the z axis, and a direction along it. -/
example : ∃ (obs : List (Obs Corr2)) (a : V3), a ≠ 0 ∧ obs.length = 2 ∧
    (∀ o ∈ obs, RigidMotion o.toCameraMount ∧ RigidMotion o.toTargetMount) ∧
    ∀ o ∈ obs, ∀ o' ∈ obs, (mountMotion o o').R.mulVec a = a := by
  refine ⟨[squareObs2 1 1 1, squareObs2 1 1 quarterZ], ⟨0, 0, 1⟩, ?_, rfl, ?_, ?_⟩
  · intro h; have := congrArg V3.z h; simp at this
  · intro o ho
    simp only [List.mem_cons, List.not_mem_nil, or_false] at ho
    rcases ho with rfl | rfl
    · exact ⟨Representable.one.1, Representable.one.1⟩
    · exact ⟨quarterZ_rep.1, Representable.one.1⟩
  · intro o ho o' ho'
    simp only [List.mem_cons, List.not_mem_nil, or_false] at ho ho'
    rcases ho with rfl | rfl <;> rcases ho' with rfl | rfl <;>
      norm_num [mountMotion, squareObs2, Iso.inv, M3.tr, quarterZ, Iso.mul_def, M3.mul_def, Iso.one_def, M3.one_def, M3.mulVec]

/-! ## C154 Calibration of static cameras without known target poses -/

/-- Moving all cameras and all target poses together changes no reprojection error: only the poses relative to each other are
determined. -/
theorem C154_gauge (intr : List Intr) (cams : List Iso) (tgt : Nat → Nat → Iso) (fs : List Feature)
    (hin : ∀ f ∈ fs, f.cam < cams.length) (B : Iso) (hB : RigidMotion B) :
    staticErrors intr (cams.map (B * ·)) (fun c i => B * tgt c i) fs = staticErrors intr cams tgt fs := by
  unfold staticErrors
  refine flatMap_congr' fun f hf => ?_
  have h1 : cams[f.cam]? = some (cams[f.cam]'(hin f hf)) := List.getElem?_eq_getElem (hin f hf)
  have h2 : (cams.map (B * ·))[f.cam]? = some (B * cams[f.cam]'(hin f hf)) := by simp [hin f hf]
  rw [getD_of_some h1, getD_of_some h2]
  unfold staticError
  rw [Iso.mul_inv_rev ((rigid_iff _).2 hB), Iso.mul_assoc, Iso.inv_mul_cancel_left ((rigid_iff _).2 hB)]

theorem byImage_mem {obs : List (List (List Corr2))} {cams images c i : Nat} {k : Corr2} (hc : c < cams) (hi : i < images)
    (hk : k ∈ (obs.getD c []).getD i []) : (⟨c, i, k⟩ : Feature) ∈ byImage obs cams images :=
  List.mem_flatMap.2 ⟨i, List.mem_range.2 hi, List.mem_flatMap.2 ⟨c, List.mem_range.2 hc, List.mem_map.2 ⟨k, hk, rfl⟩⟩⟩

/-- Perfect images of a planar target: if two cameras see it in a common image and the final cost is zero, the reported pose of
one camera relative to the other is the true one, and so are the reported poses of the target relative to them. -/
theorem C154_relative (s : Ceres Pose6) (hs : s.WF) (p : CoProblem) (res : CoResult) (h : cameraOnly s p = .ok res)
    (hfix : p.fixFirst = true → ∀ g, p.baseToCameraGuess[0]? = some g → Representable g)
    (hi : p.baseToTargetGuess ≠ []) (hr : ∀ c ∈ res.baseToCamera, RigidMotion c) (hrt : ∀ t ∈ res.baseToTarget, RigidMotion t)
    (cams tgts : List Iso) (hcams : ∀ c ∈ cams, RigidMotion c) (htgts : ∀ t ∈ tgts, RigidMotion t)
    (hdata : ∀ e ∈ staticErrors p.intr cams (fun _ i => tgts.getD i 1)
      (byImage p.observations p.baseToCameraGuess.length p.baseToTargetGuess.length), e = 0)
    (hz : ∀ f ∈ byImage p.observations p.baseToCameraGuess.length p.baseToTargetGuess.length,
      0 < staticDepth (cams.getD f.cam 1) (tgts.getD f.img 1) f.corr)
    (hz' : ∀ f ∈ byImage p.observations p.baseToCameraGuess.length p.baseToTargetGuess.length,
      0 < staticDepth (res.baseToCamera.getD f.cam 1) (res.baseToTarget.getD f.img 1) f.corr) (c c' i : Nat)
    (hi' : i < p.baseToTargetGuess.length) (hcost : res.finalCost = some 0)
    (hsee : ∀ x ∈ [c, c'], x < p.baseToCameraGuess.length ∧ SeesQuadrangle ((p.observations.getD x []).getD i []) ∧
      (p.intr.getD x ⟨0, 0, 0, 0⟩).fx ≠ 0 ∧ (p.intr.getD x ⟨0, 0, 0, 0⟩).fy ≠ 0 ∧
      ((cams.getD x 1).inv * tgts.getD i 1).inv.t.z ≠ 0) :
    (res.baseToCamera.getD c 1).inv * res.baseToCamera.getD c' 1 = (cams.getD c 1).inv * cams.getD c' 1 ∧
    (res.baseToCamera.getD c 1).inv * res.baseToTarget.getD i 1 = (cams.getD c 1).inv * tgts.getD i 1 := by
  rw [C126_camera_only_final s hs p res h hfix hi hr (fun f hf => (hz' f hf).ne'), meanCost_eq_zero_iff] at hcost
  obtain ⟨-, hzero⟩ := hcost
  unfold staticErrors at hdata hzero
  rw [flatMap_zero] at hdata hzero
  have rg : ∀ (l : List Iso), (∀ t ∈ l, RigidMotion t) → ∀ n : Nat, (l.getD n 1).IsRigid := by
    intro l hl n
    rw [List.getD_eq_getElem?_getD]
    cases hn : l[n]? with
    | none => exact Iso.IsRigid.one
    | some t => exact (rigid_iff _).2 (hl t (List.mem_of_getElem? hn))
  have key : ∀ x ∈ [c, c'], (res.baseToCamera.getD x 1).inv * res.baseToTarget.getD i 1 = (cams.getD x 1).inv * tgts.getD i 1 := by
    intro x hx
    obtain ⟨hx1, ⟨ka, ma, kb, mb, kc, mc, kd, md, hq⟩, hfx, hfy, hcam⟩ := hsee x hx
    have hk : ∀ k ∈ (p.observations.getD x []).getD i [],
        ((res.baseToCamera.getD x 1).inv * res.baseToTarget.getD i 1).apply k.inTarget =
        V3.smul ((((res.baseToCamera.getD x 1).inv * res.baseToTarget.getD i 1).apply k.inTarget).z /
          (((cams.getD x 1).inv * tgts.getD i 1).apply k.inTarget).z) (((cams.getD x 1).inv * tgts.getD i 1).apply k.inTarget) := by
      intro k hk
      have hmem := byImage_mem hx1 hi' hk
      exact pinhole_same hfx hfy (hz' _ hmem).ne' (hz _ hmem).ne'
        ((diff2_zero.1 (hzero _ hmem)).trans (diff2_zero.1 (hdata _ hmem)).symm)
    exact planar_unique ((rg _ hr _).inv.mul (rg _ hrt _)) ((rg _ hcams _).inv.mul (rg _ htgts _)) hq hcam
      (div_pos (hz' _ (byImage_mem hx1 hi' ma)) (hz _ (byImage_mem hx1 hi' ma))) (hk _ ma) (hk _ mb) (hk _ mc) (hk _ md)
  have k1 := key c (by simp)
  refine ⟨?_, k1⟩
  have k2 := congrArg Iso.inv (key c' (by simp))
  rw [Iso.mul_inv_rev (rg _ hr _).inv, Iso.mul_inv_rev (rg _ hcams _).inv, Iso.inv_inv (rg _ hr _), Iso.inv_inv (rg _ hcams _)] at k2
  have k3 := congrArg₂ (· * ·) k1 k2
  simp only [Iso.mul_assoc, Iso.mul_inv_cancel_left (rg _ hrt _), Iso.mul_inv_cancel_left (rg _ htgts _)] at k3
  exact k3

/-- With the first camera fixed at its true pose, every camera that shares an image with it is reported at its true pose. -/
theorem C154_fixed (s : Ceres Pose6) (hs : s.WF) (p : CoProblem) (res : CoResult) (h : cameraOnly s p = .ok res)
    (hf : p.fixFirst = true) (g : Iso) (hg : p.baseToCameraGuess[0]? = some g) (hrep : Representable g)
    (hi : p.baseToTargetGuess ≠ []) (hr : ∀ c ∈ res.baseToCamera, RigidMotion c) (hrt : ∀ t ∈ res.baseToTarget, RigidMotion t)
    (cams tgts : List Iso) (hcams : ∀ c ∈ cams, RigidMotion c) (htgts : ∀ t ∈ tgts, RigidMotion t) (hg' : cams[0]? = some g)
    (hdata : ∀ e ∈ staticErrors p.intr cams (fun _ i => tgts.getD i 1)
      (byImage p.observations p.baseToCameraGuess.length p.baseToTargetGuess.length), e = 0)
    (hz : ∀ f ∈ byImage p.observations p.baseToCameraGuess.length p.baseToTargetGuess.length,
      0 < staticDepth (cams.getD f.cam 1) (tgts.getD f.img 1) f.corr)
    (hz' : ∀ f ∈ byImage p.observations p.baseToCameraGuess.length p.baseToTargetGuess.length,
      0 < staticDepth (res.baseToCamera.getD f.cam 1) (res.baseToTarget.getD f.img 1) f.corr) (c i : Nat)
    (hi' : i < p.baseToTargetGuess.length) (hcost : res.finalCost = some 0)
    (hsee : ∀ x ∈ [0, c], x < p.baseToCameraGuess.length ∧ SeesQuadrangle ((p.observations.getD x []).getD i []) ∧
      (p.intr.getD x ⟨0, 0, 0, 0⟩).fx ≠ 0 ∧ (p.intr.getD x ⟨0, 0, 0, 0⟩).fy ≠ 0 ∧
      ((cams.getD x 1).inv * tgts.getD i 1).inv.t.z ≠ 0) :
    res.baseToCamera.getD c 1 = cams.getD c 1 ∧ res.baseToTarget.getD i 1 = tgts.getD i 1 := by
  obtain ⟨h1, h2⟩ := C154_relative s hs p res h (fun _ g' hg2 => by rw [hg] at hg2; cases hg2; exact hrep) hi hr hrt cams tgts
    hcams htgts hdata hz hz' 0 c i hi' hcost hsee
  have h0 := C39_partial s hs p res h hf hi g hg hrep
  rw [getD_of_some h0, getD_of_some hg'] at h1 h2
  have k1 := congrArg (g * ·) h1
  have k2 := congrArg (g * ·) h2
  simp only [Iso.mul_inv_cancel_left hrep.rigid] at k1 k2
  exact ⟨k1, k2⟩

/-- Two cameras, the first fixed, that see the square in one image. -/
example : ∃ (p : CoProblem) (res : CoResult) (cams tgts : List Iso), cameraOnly (idCeres Pose6) p = .ok res ∧ p.fixFirst = true ∧
    p.baseToCameraGuess[0]? = some 1 ∧ cams[0]? = some 1 ∧ p.baseToTargetGuess ≠ [] ∧ (∀ c ∈ res.baseToCamera, RigidMotion c) ∧
    (∀ t ∈ res.baseToTarget, RigidMotion t) ∧ (∀ c ∈ cams, RigidMotion c) ∧ (∀ t ∈ tgts, RigidMotion t) ∧
    (∀ e ∈ staticErrors p.intr cams (fun _ i => tgts.getD i 1)
      (byImage p.observations p.baseToCameraGuess.length p.baseToTargetGuess.length), e = 0) ∧
    (∀ f ∈ byImage p.observations p.baseToCameraGuess.length p.baseToTargetGuess.length,
      0 < staticDepth (cams.getD f.cam 1) (tgts.getD f.img 1) f.corr) ∧
    (∀ f ∈ byImage p.observations p.baseToCameraGuess.length p.baseToTargetGuess.length,
      0 < staticDepth (res.baseToCamera.getD f.cam 1) (res.baseToTarget.getD f.img 1) f.corr) ∧
    (0 < p.baseToTargetGuess.length) ∧ res.finalCost = some 0 ∧
    ∀ x ∈ [0, 1], x < p.baseToCameraGuess.length ∧ SeesQuadrangle ((p.observations.getD x []).getD 0 []) ∧
      (p.intr.getD x ⟨0, 0, 0, 0⟩).fx ≠ 0 ∧ (p.intr.getD x ⟨0, 0, 0, 0⟩).fy ≠ 0 ∧
      ((cams.getD x 1).inv * tgts.getD 0 1).inv.t.z ≠ 0 := by
  obtain ⟨cams, hcs⟩ : ∃ cams : List Iso, cams = [1, shiftBy 0 0 1] := ⟨_, rfl⟩
  obtain ⟨p, hp⟩ : ∃ p : CoProblem, p = ⟨true, [⟨1, 1, 0, 0⟩, ⟨1, 1, 0, 0⟩], [shiftBy 0 0 2],
    [[squareImage ⟨1, 1, 0, 0⟩ (shiftBy 0 0 2)], [squareImage ⟨1, 1, 0, 0⟩ (shiftBy 0 0 1)]], cams⟩ := ⟨_, rfl⟩
  have hrep : ∀ c ∈ cams, Representable c := by
    rw [hcs]; intro c hc
    simp only [List.mem_cons, List.not_mem_nil, or_false] at hc
    rcases hc with rfl | rfl
    · exact .one
    · exact shiftBy_rep _ _ _
  have hrept : ∀ c ∈ [shiftBy 0 0 2], Representable c := by
    intro c hc
    rw [List.mem_singleton] at hc
    rw [hc]; exact shiftBy_rep _ _ _
  obtain ⟨res, h⟩ : ∃ res, cameraOnly (idCeres Pose6) p = .ok res := by rw [hp, hcs]; exact ⟨_, rfl⟩
  have hi : p.baseToTargetGuess ≠ [] := by rw [hp]; simp
  obtain ⟨h1, h2⟩ := C34_camera_only (idCeres Pose6) p res (fun _ _ => rfl) hi (by rw [hp]; exact hrept) (by rw [hp]; exact hrep) h
  have e1 : p.baseToTargetGuess = [shiftBy 0 0 2] := by rw [hp]
  have e2 : p.baseToCameraGuess = cams := by rw [hp]
  rw [e1] at h1
  rw [e2] at h2
  have hfe : ∀ f ∈ byImage p.observations p.baseToCameraGuess.length p.baseToTargetGuess.length,
      p.intr.getD f.cam ⟨0, 0, 0, 0⟩ = ⟨1, 1, 0, 0⟩ ∧ 0 < staticDepth (cams.getD f.cam 1) ([shiftBy 0 0 2].getD f.img 1) f.corr ∧
      staticError ⟨1, 1, 0, 0⟩ (cams.getD f.cam 1) ([shiftBy 0 0 2].getD f.img 1) f.corr = [0, 0] := by
    intro f hf
    rw [hp, hcs] at hf
    simp only [byImage, featuresOf, squareImage, squarePoints, List.length_cons, List.length_nil, List.range_succ, List.range_zero,
      List.nil_append, List.flatMap_cons, List.flatMap_nil, List.append_nil, List.getD_cons_zero, List.map_cons, List.map_nil,
      List.cons_append, List.getD_cons_succ, List.mem_cons, List.not_mem_nil, or_false, zero_add] at hf
    rw [hp, hcs]
    have hinv : (shiftBy 0 0 1).inv = shiftBy 0 0 (-1) := by
      ext <;> simp [shiftBy, Iso.inv, M3.tr, M3.mulVec]
    rcases hf with rfl | rfl | rfl | rfl | rfl | rfl | rfl | rfl <;>
      norm_num [staticDepth, staticError, diff2, Iso.inv_one, Iso.one_mul, hinv, Iso.apply_mul, shiftBy_apply, pinhole]
  have hz : ∀ f ∈ byImage p.observations p.baseToCameraGuess.length p.baseToTargetGuess.length,
      0 < staticDepth (cams.getD f.cam 1) ([shiftBy 0 0 2].getD f.img 1) f.corr := fun f hf => (hfe f hf).2.1
  have hzero : ∀ e ∈ staticErrors p.intr cams (fun _ i => [shiftBy 0 0 2].getD i 1)
      (byImage p.observations p.baseToCameraGuess.length p.baseToTargetGuess.length), e = 0 := by
    rw [staticErrors, flatMap_zero]
    intro f hf e he
    rw [(hfe f hf).1, (hfe f hf).2.2] at he
    simpa using he
  refine ⟨p, res, cams, [shiftBy 0 0 2], h, by rw [hp], by rw [e2, hcs]; rfl, by rw [hcs]; rfl, hi,
    by rw [h2]; exact fun c hc => (hrep c hc).1, by rw [h1]; exact fun c hc => (hrept c hc).1, fun c hc => (hrep c hc).1,
    fun c hc => (hrept c hc).1, hzero, hz, by rw [h1, h2]; exact hz, by rw [e1]; simp, ?_, ?_⟩
  · rw [C126_camera_only_final _ (idCeres_wf Pose6) p res h (fun _ g hg => hrep g (by rw [← e2]; exact List.mem_of_getElem? hg)) hi
      (by rw [h2]; exact fun c hc => (hrep c hc).1) (fun f hf => by rw [h1, h2]; exact (hz f hf).ne'), meanCost_eq_zero_iff, h1, h2]
    refine ⟨?_, hzero⟩
    rw [hp, hcs]
    simp [staticErrors, byImage, featuresOf, squareImage, squarePoints, List.range_succ, staticError, diff2]
  · intro x hx
    simp only [List.mem_cons, List.not_mem_nil, or_false] at hx
    rw [hp, hcs]
    rcases hx with rfl | rfl <;> refine ⟨by simp, squareImage_sees _ _, by norm_num, by norm_num, ?_⟩ <;>
      norm_num [shiftBy, Iso.inv, M3.tr, M3.mulVec, Iso.mul_def, M3.mul_def, Iso.one_def, M3.one_def]

end RCT
