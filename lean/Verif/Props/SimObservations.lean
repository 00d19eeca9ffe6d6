import Verif.Props.PoseGenerators
import Verif.Props.HandEye

/-!
# Simulated observations (C114 - C116, C122)
-/

namespace RCT
open Spec

theorem projectPoint_eq_pinhole {i : Intr} {p : V3} (h : p.z ≠ 0) : projectPoint i p = pinhole i p := by
  simp [projectPoint, pinhole, h]

open Classical in
theorem projectAndTest_eq (cam : SimCamera) (p : V3) :
    (if p.z > 0 then projectAndTest p cam else none) =
      if Visible cam.intr cam.width cam.height p then some (pinhole cam.intr p) else none := by
  by_cases hz : p.z > 0
  · rw [if_pos hz]
    unfold projectAndTest
    rw [projectPoint_eq_pinhole hz.ne']
    simp only
    by_cases hv : Visible cam.intr cam.width cam.height p
    · rw [if_pos hv, if_neg]
      obtain ⟨_, h1, h2, h3, h4⟩ := hv
      push Not; exact ⟨h1, h2, h3, h4⟩
    · rw [if_neg hv, if_pos]
      by_contra hc
      push Not at hc
      exact hv ⟨hz, hc.1, hc.2.1, hc.2.2.1, hc.2.2.2⟩
  · rw [if_neg hz, if_neg]
    rintro ⟨h, _⟩; exact hz h

open Classical in
theorem simCorrs2_fold (cp tp : Iso) (cam : SimCamera) (pts : List V3) (acc : List Corr2) :
    Res.foldList (fun acc point =>
      match (if ((cp.inv * tp).apply point).z > 0 then projectAndTest ((cp.inv * tp).apply point) cam else none) with
      | some px => Res.ok (acc ++ [(⟨px, point⟩ : Corr2)])
      | none => if false = true then Res.throw .runtimeError else Res.ok acc) acc pts =
    .ok (acc ++ (pts.filter fun p => decide (Visible cam.intr cam.width cam.height ((cp.inv * tp).apply p))).map
      fun p => ⟨pinhole cam.intr ((cp.inv * tp).apply p), p⟩) := by
  induction pts generalizing acc with
  | nil => simp
  | cons p pts ih =>
    rw [Res.foldList_cons, projectAndTest_eq]
    by_cases hv : Visible cam.intr cam.width cam.height ((cp.inv * tp).apply p)
    · rw [if_pos hv]; simp only [Res.ok_bind]; rw [ih]; simp [hv]
    · rw [if_neg hv]; simp only [Bool.false_eq_true, if_false, Res.ok_bind] at ih ⊢; rw [ih]; simp [hv]

open Classical in
/-- C114: without `require_all` the correspondences are exactly the visible target points, in order, each with its pinhole
image. -/
theorem C114_visible (cp tp : Iso) (cam : SimCamera) (pts : List V3) :
    simCorrs2 cp tp cam pts false = .ok ((pts.filter fun p =>
      decide (Visible cam.intr cam.width cam.height (cp.inv.apply (tp.apply p)))).map
        fun p => ⟨pinhole cam.intr (cp.inv.apply (tp.apply p)), p⟩) := by
  have := simCorrs2_fold cp tp cam pts []
  simp only [← Iso.apply_mul]
  exact this

open Classical in
/-- C114: with `require_all` all points are returned if all are visible; otherwise an exception is thrown. -/
theorem C114_require_all (cp tp : Iso) (cam : SimCamera) (pts : List V3) :
    ((∀ p ∈ pts, Visible cam.intr cam.width cam.height (cp.inv.apply (tp.apply p))) →
      simCorrs2 cp tp cam pts true = .ok (pts.map fun p => ⟨pinhole cam.intr (cp.inv.apply (tp.apply p)), p⟩)) ∧
    ((∃ p ∈ pts, ¬ Visible cam.intr cam.width cam.height (cp.inv.apply (tp.apply p))) →
      simCorrs2 cp tp cam pts true = .throw .runtimeError) := by
  unfold simCorrs2
  simp only [← Iso.apply_mul, projectAndTest_eq]
  suffices H : ∀ acc : List Corr2, ((∀ p ∈ pts, Visible cam.intr cam.width cam.height ((cp.inv * tp).apply p)) →
      Res.foldList (fun acc point =>
        match if Visible cam.intr cam.width cam.height ((cp.inv * tp).apply point) then
          some (pinhole cam.intr ((cp.inv * tp).apply point)) else none with
        | some px => Res.ok (acc ++ [(⟨px, point⟩ : Corr2)])
        | none => if true = true then Res.throw .runtimeError else Res.ok acc) acc pts =
      .ok (acc ++ pts.map fun p => ⟨pinhole cam.intr ((cp.inv * tp).apply p), p⟩)) ∧
    ((∃ p ∈ pts, ¬ Visible cam.intr cam.width cam.height ((cp.inv * tp).apply p)) →
      Res.foldList (fun acc point =>
        match if Visible cam.intr cam.width cam.height ((cp.inv * tp).apply point) then
          some (pinhole cam.intr ((cp.inv * tp).apply point)) else none with
        | some px => Res.ok (acc ++ [(⟨px, point⟩ : Corr2)])
        | none => if true = true then Res.throw .runtimeError else Res.ok acc) acc pts = .throw .runtimeError) from H []
  induction pts with
  | nil => intro acc; simp
  | cons p pts ih =>
    intro acc
    by_cases hv : Visible cam.intr cam.width cam.height ((cp.inv * tp).apply p)
    · constructor
      · intro h
        rw [Res.foldList_cons, if_pos hv]
        exact ((ih _).1 fun q hq => h q (by simp [hq])).trans (by simp)
      · rintro ⟨q, hq, hqv⟩
        rw [Res.foldList_cons, if_pos hv]
        refine (ih _).2 ⟨q, ?_, hqv⟩
        rcases List.mem_cons.1 hq with rfl | h
        · exact absurd hv hqv
        · exact h
    · constructor
      · intro h; exact absurd (h p (by simp)) hv
      · intro _
        rw [Res.foldList_cons, if_neg hv]; simp

/-- C114: without a camera all points are returned, in order, in camera coordinates. -/
theorem C114_3d (cp tp : Iso) (pts : List V3) :
    simCorrs3 cp tp pts = pts.map fun p => ⟨cp.inv.apply (tp.apply p), p⟩ := by
  simp [simCorrs3, Iso.apply_mul]

example : Visible ⟨550, 550, 320, 240⟩ 640 480 ((1 : Iso).inv.apply ((1 : Iso).apply ⟨0, 0, 1⟩)) := by
  simp [Visible, pinhole]; norm_num
example : ¬ Visible ⟨550, 550, 320, 240⟩ 640 480 ((1 : Iso).inv.apply ((1 : Iso).apply ⟨0, 0, -1⟩)) := by
  simp [Visible, pinhole]

/-! ### Observation sets -/

theorem simCamera_eq {T C B P : Iso} (hC : C.IsRigid) : simToCameraMount T C B P * C = B * T * P := by
  unfold simToCameraMount
  rw [Iso.mul_one, Iso.mul_assoc (B * T * P), Iso.inv_mul hC, Iso.mul_one]

theorem simCamera_inv {T C B P : Iso} (hC : C.IsRigid) (hB : B.IsRigid) (hT : T.IsRigid) (p : V3) :
    (simToCameraMount T C B P * C).inv.apply ((B * 1 * T).apply p) = P.inv.apply p := by
  rw [simCamera_eq hC, Iso.mul_one, Iso.mul_inv_rev (hB.mul hT), Iso.apply_mul, Iso.inv_apply_apply (hB.mul hT)]

open Classical in
/-- C115: the creator always returns one observation for each generated pose, in order; its camera pose is the generated
pose relative to the target, and its correspondences are the target points visible from that pose with their images. -/
theorem C115_observations (cam : SimCamera) (pts : List V3) (pgs : List (Iso → List Iso)) (T C B : Iso)
    (hT : RigidMotion T) (hC : RigidMotion C) (hB : RigidMotion B) :
    ∃ obs, simObservations2 cam pts pgs T C B = .ok obs ∧
      List.Forall₂ (fun P (o : Obs Corr2) => o.toTargetMount = 1 ∧ o.toCameraMount * C = B * T * P ∧
        o.corrs = (pts.filter fun p => decide (Visible cam.intr cam.width cam.height (P.inv.apply p))).map
          fun p => ⟨pinhole cam.intr (P.inv.apply p), p⟩) (pgs.flatMap fun g => g T) obs := by
  have hT := (rigid_iff _).2 hT; have hC := (rigid_iff _).2 hC; have hB := (rigid_iff _).2 hB
  unfold simObservations2
  refine ⟨_, Res.mapList_ok_of_forall (g := fun P => ⟨(pts.filter fun p =>
    decide (Visible cam.intr cam.width cam.height (P.inv.apply p))).map
      fun p => ⟨pinhole cam.intr (P.inv.apply p), p⟩, simToCameraMount T C B P, 1⟩) ?_, ?_⟩
  · intro P _
    simp only [C114_visible, simCamera_inv hC hB hT, Res.ok_bind]
  · rw [List.forall₂_map_right_iff]
    apply List.forall₂_same.2
    intro P _
    exact ⟨rfl, simCamera_eq hC, rfl⟩

/-- C115: the same without a camera. -/
theorem C115_observations_3d (pts : List V3) (pgs : List (Iso → List Iso)) (T C B : Iso)
    (hT : RigidMotion T) (hC : RigidMotion C) (hB : RigidMotion B) :
    List.Forall₂ (fun P (o : Obs Corr3) => o.toTargetMount = 1 ∧ o.toCameraMount * C = B * T * P ∧
        o.corrs = pts.map fun p => ⟨P.inv.apply p, p⟩) (pgs.flatMap fun g => g T) (simObservations3 pts pgs T C B) := by
  have hT := (rigid_iff _).2 hT; have hC := (rigid_iff _).2 hC; have hB := (rigid_iff _).2 hB
  unfold simObservations3
  rw [List.forall₂_map_right_iff]
  apply List.forall₂_same.2
  intro P _
  refine ⟨rfl, simCamera_eq hC, ?_⟩
  simp only [C114_3d, simCamera_inv hC hB hT]

theorem simRigid {T C P : Iso} (hT : T.IsRigid) (hC : C.IsRigid) (hP : P.IsRigid) : (simToCameraMount T C 1 P).IsRigid := by
  unfold simToCameraMount
  exact (((Iso.IsRigid.one.mul Iso.IsRigid.one).mul hT).mul hP).mul hC.inv

theorem simInCamera {T C P : Iso} (hT : T.IsRigid) (hC : C.IsRigid) (hP : P.IsRigid) (p : V3) :
    targetInCamera C (simToCameraMount T C 1 P) 1 T p = P.inv.apply p := by
  unfold targetInCamera
  rw [Iso.one_mul, ← Iso.mul_assoc, ← Iso.mul_inv_rev (simRigid hT hC hP), simCamera_eq hC, Iso.one_mul,
    Iso.mul_inv_rev hT, Iso.apply_mul, Iso.apply_mul, Iso.inv_apply_apply hT]

/-- C115: when camera and target share their base, every simulated image point is the projection through the true
transforms, of a point in front of the camera. -/
theorem C115_explained (cam : SimCamera) (pts : List V3) (pgs : List (Iso → List Iso)) (T C : Iso) (hT : RigidMotion T)
    (hC : RigidMotion C) (hP : ∀ g ∈ pgs, ∀ P ∈ g T, RigidMotion P) (obs : List (Obs Corr2))
    (h : simObservations2 cam pts pgs T C 1 = .ok obs) :
    ∀ f ∈ features obs, f.2.inTarget ∈ pts ∧ Visible cam.intr cam.width cam.height (inCamera2 C T f) ∧
      f.2.inImage = pinhole cam.intr (inCamera2 C T f) := by
  have hT := (rigid_iff _).2 hT; have hC := (rigid_iff _).2 hC
  unfold simObservations2 at h
  rw [Res.mapList_ok_iff] at h
  intro f hf
  obtain ⟨ho, hk⟩ := mem_features.1 hf
  obtain ⟨n, hn, hget⟩ := List.getElem_of_mem ho
  have hn' : n < (pgs.flatMap fun g => g T).length := by rw [h.length_eq]; exact hn
  have h2 := h.get hn' hn
  simp only [List.get_eq_getElem, C114_visible, Res.ok_bind, hget] at h2
  obtain ⟨g, hg, hPg⟩ := List.mem_flatMap.1 (List.getElem_mem hn')
  have hPr := (rigid_iff _).2 (hP g hg _ hPg)
  generalize (pgs.flatMap fun g => g T)[n] = P at h2 hPr
  simp only [simCamera_inv hC Iso.IsRigid.one hT] at h2
  injection h2 with h2
  obtain ⟨o, k⟩ := f
  simp only at h2 hk ⊢
  subst h2
  simp only [List.mem_map, List.mem_filter, decide_eq_true_eq] at hk
  obtain ⟨p, ⟨hp, hv⟩, rfl⟩ := hk
  have e : ∀ (l : List Corr2) (k : Corr2), inCamera2 C T ((⟨l, simToCameraMount T C 1 P, 1⟩ : Obs Corr2), k) =
      P.inv.apply k.inTarget := fun l k => simInCamera hT hC hPr k.inTarget
  rw [simCamera_inv hC Iso.IsRigid.one hT] at hv
  rw [e]
  exact ⟨hp, hv, rfl⟩

/-- C115: the hand-eye residuals of simulated data vanish at the true transforms. -/
theorem C115_residuals (cam : SimCamera) (pts : List V3) (pgs : List (Iso → List Iso)) (T C : Iso) (hT : Representable T)
    (hC : Representable C) (hP : ∀ g ∈ pgs, ∀ P ∈ g T, RigidMotion P) (p : HandEyeProblem Corr2)
    (h : simObservations2 cam pts pgs T C 1 = .ok p.observations) (hi : p.intr = cam.intr)
    (hm : MountsRepresentable p.observations) (pb : List (ResBlock Pose6)) (hb : heBuild2 p = .ok pb)
    (st : Nat → Pose6) (h0 : st heCam = poseEigenToCal C.inv) (h1 : st heTgt = poseEigenToCal T) :
    (∀ r ∈ residuals pb st, r = 0) ∧ cost pb st = 0 := by
  have := C29_partial p pb hb hm C T hC hT (fun f hf => by
    have := C115_explained cam pts pgs T C hT.1 hC.1 hP _ h f hf
    rw [hi]
    exact ⟨this.2.1.1.ne', this.2.2⟩) st h0 h1
  exact ⟨this.1, this.2.1⟩

/-- The conical generator with the default offset meets the hypothesis on the poses. -/
example (r : ℝ) (n : Nat) (t : V3) : ∀ g ∈ [conicalPoses r 2 n 0 1], ∀ P ∈ g ⟨1, t⟩, RigidMotion P := by
  intro g hg P hP
  rw [List.mem_singleton] at hg; subst hg
  obtain ⟨_, _, _, h⟩ := C112_partial_cone_aligned r 2 n 0 1 t ((rigid_iff _).1 Iso.IsRigid.one) (by norm_num) P hP
  exact h.1

/-! ### Where the simulated cameras look -/

theorem straightAhead_mul {A P : Iso} (hA : A.IsRigid) (p : V3) (d : ℝ) :
    StraightAhead (A * P) (A.apply p) d ↔ StraightAhead P p d := by
  unfold StraightAhead
  rw [Iso.apply_mul]
  constructor
  · rintro ⟨h, e⟩
    refine ⟨h, ?_⟩
    have := congrArg A.inv.apply e
    rwa [Iso.inv_apply_apply hA, Iso.inv_apply_apply hA] at this
  · rintro ⟨h, e⟩; exact ⟨h, by rw [e]⟩

/-- C116 (what holds). Full statement: whenever the pose generators produce poses that have the target straight ahead, so do
the cameras of all observations. In fact every camera has the point straight ahead whose target coordinates are the
translation of the target mount transform; this is the target origin only if that translation is zero. -/
theorem C116_partial (cam : SimCamera) (pts : List V3) (pgs : List (Iso → List Iso)) (T C B : Iso)
    (hT : RigidMotion T) (hC : RigidMotion C) (hB : RigidMotion B)
    (hgen : ∀ g ∈ pgs, ∀ P ∈ g T, ∃ d, StraightAhead P T.t d) (obs : List (Obs Corr2))
    (h : simObservations2 cam pts pgs T C B = .ok obs) :
    ∀ o ∈ obs, ∃ d, StraightAhead (o.toCameraMount * C) ((B * o.toTargetMount * T).apply T.t) d ∧
      (T.t = 0 → StraightAhead (o.toCameraMount * C) (B * o.toTargetMount * T).t d) := by
  obtain ⟨obs', h', hf⟩ := C115_observations cam pts pgs T C B hT hC hB
  rw [h] at h'; cases h'
  have hBT := ((rigid_iff _).2 hB).mul ((rigid_iff _).2 hT)
  intro o ho
  obtain ⟨n, hn, rfl⟩ := List.getElem_of_mem ho
  have hn' : n < (pgs.flatMap fun g => g T).length := by rw [hf.length_eq]; exact hn
  have h2 := hf.get hn' hn
  simp only [List.get_eq_getElem] at h2
  obtain ⟨g, hg, hPg⟩ := List.mem_flatMap.1 (List.getElem_mem hn')
  obtain ⟨d, hd⟩ := hgen g hg _ hPg
  rw [h2.1, h2.2.1, Iso.mul_one]
  refine ⟨d, (straightAhead_mul hBT _ _).2 hd, fun h0 => ?_⟩
  have : (B * T).t = (B * T).apply T.t := by rw [h0]; simp [Iso.apply, V3.zero_add]
  rw [this]
  exact (straightAhead_mul hBT _ _).2 hd

/-- C116 is false: if the translation of the target mount is not along the optical axis of a generated pose, no camera has
the target straight ahead. -/
theorem C116_negation (cam : SimCamera) (pts : List V3) (pgs : List (Iso → List Iso)) (T C B : Iso)
    (hT : RigidMotion T) (hC : RigidMotion C) (hB : RigidMotion B)
    (hgen : ∀ g ∈ pgs, ∀ P ∈ g T, (∃ d, StraightAhead P T.t d) ∧ ¬ Parallel T.t ⟨P.R.m02, P.R.m12, P.R.m22⟩)
    (obs : List (Obs Corr2)) (h : simObservations2 cam pts pgs T C B = .ok obs) :
    ∀ o ∈ obs, ¬ ∃ d, StraightAhead (o.toCameraMount * C) (B * o.toTargetMount * T).t d := by
  obtain ⟨obs', h', hf⟩ := C115_observations cam pts pgs T C B hT hC hB
  rw [h] at h'; cases h'
  have hBT := ((rigid_iff _).2 hB).mul ((rigid_iff _).2 hT)
  intro o ho
  obtain ⟨n, hn, rfl⟩ := List.getElem_of_mem ho
  have hn' : n < (pgs.flatMap fun g => g T).length := by rw [hf.length_eq]; exact hn
  have h2 := hf.get hn' hn
  simp only [List.get_eq_getElem] at h2
  obtain ⟨g, hg, hPg⟩ := List.mem_flatMap.1 (List.getElem_mem hn')
  obtain ⟨⟨d, -, hd⟩, hpar⟩ := hgen g hg _ hPg
  rintro ⟨d', hd'⟩
  rw [h2.1, h2.2.1, Iso.mul_one] at hd'
  have e : (B * T).t = (B * T).apply 0 := by simp [Iso.apply, V3.zero_add]
  rw [e] at hd'
  obtain ⟨-, h3⟩ := (straightAhead_mul hBT _ _).1 hd'
  apply hpar
  generalize (pgs.flatMap fun g => g T)[n] = P at hd h3
  have hx := congrArg V3.x hd; have hy := congrArg V3.y hd; have hz := congrArg V3.z hd
  have hx' := congrArg V3.x h3; have hy' := congrArg V3.y h3; have hz' := congrArg V3.z h3
  simp [Iso.apply, M3.mulVec] at hx hy hz hx' hy' hz'
  unfold Parallel
  ext <;> simp only [V3.cross, V3.zero_x, V3.zero_y, V3.zero_z]
  · rw [← hy, ← hz]; linear_combination P.R.m22 * hy' - P.R.m12 * hz'
  · rw [← hx, ← hz]; linear_combination P.R.m02 * hz' - P.R.m22 * hx'
  · rw [← hx, ← hy]; linear_combination P.R.m12 * hx' - P.R.m02 * hy'

/-- The conical generator with a target mounted off the mount origin. -/
example (n : Nat) : ∀ g ∈ [conicalPoses 1 2 n 0 1], ∀ P ∈ g ⟨1, ⟨5, 0, 0⟩⟩,
    (∃ d, StraightAhead P (⟨5, 0, 0⟩ : V3) d) ∧ ¬ Parallel ⟨5, 0, 0⟩ ⟨P.R.m02, P.R.m12, P.R.m22⟩ := by
  intro g hg P hP
  rw [List.mem_singleton] at hg; subst hg
  obtain ⟨pos, -, hz, -, h1, h2, h3⟩ := C112_partial_cone_aligned 1 2 n 0 1 ⟨5, 0, 0⟩ ((rigid_iff _).1 Iso.IsRigid.one)
    (by norm_num) P hP
  simp only [Iso.apply_one] at h1 h3
  refine ⟨⟨_, h2, h3⟩, fun hp => ?_⟩
  have hy := congrArg V3.y hp
  simp [V3.cross] at hy
  have hz' := congrArg V3.z h3
  have hz1 := congrArg V3.z h1
  simp [Iso.apply, M3.mulVec] at hz' hz1
  rw [hz1, hz, hy] at hz'
  norm_num at hz'

/-! ### The simulated target -/

theorem simTarget_points (rows cols : Nat) (s : ℝ) : (SimTarget.make rows cols s).points =
    gridList rows cols fun i j => ⟨(j : ℝ) * s, ((rows - (i + 1) : Nat) : ℝ) * s, 0⟩ := by
  simp only [SimTarget.make, gridList, List.flatMap_map]

/-- C122 (positive part): the points are those of the grid, row by row from the top, and `origin_idx` is the number of the
point at the origin; for square targets the centre is the midpoint of opposite corners. -/
theorem C122_partial (rows cols : Nat) (s : ℝ) (hr : 0 < rows) (hc : 0 < cols) :
    (SimTarget.make rows cols s).points.length = rows * cols ∧
    (∀ i < rows, ∀ j < cols, (SimTarget.make rows cols s).points[i * cols + j]? =
      some ⟨(j : ℝ) * s, ((rows : ℝ) - 1 - i) * s, 0⟩) ∧
    (SimTarget.make rows cols s).points[(SimTarget.make rows cols s).originIdx]? = some 0 ∧
    (rows = cols → ∀ a b, (SimTarget.make rows cols s).points[0]? = some a →
      (SimTarget.make rows cols s).points[rows * cols - 1]? = some b →
      V3.smul (1 / 2) (a + b) = (SimTarget.make rows cols s).center) := by
  have hget : ∀ i < rows, ∀ j < cols, (SimTarget.make rows cols s).points[i * cols + j]? =
      some ⟨(j : ℝ) * s, ((rows : ℝ) - 1 - i) * s, 0⟩ := by
    intro i hi j hj
    rw [simTarget_points, gridList_get _ _ _ i j hi hj]
    have : ((rows - (i + 1) : Nat) : ℝ) = (rows : ℝ) - 1 - i := by
      push_cast [Nat.cast_sub (show i + 1 ≤ rows by omega)]; ring
    rw [this]
  have hcast : ∀ k : Nat, 0 < k → ((k - 1 : Nat) : ℝ) = (k : ℝ) - 1 := fun k hk => by
    push_cast [Nat.cast_sub (show 1 ≤ k by omega)]; ring
  refine ⟨by rw [simTarget_points, gridList_length], hget, ?_, ?_⟩
  · have := hget (rows - 1) (by omega) 0 hc
    rw [Nat.add_zero] at this
    show (SimTarget.make rows cols s).points[(rows - 1) * cols]? = _
    rw [this, hcast rows hr]
    congr 1
    ext <;> simp
  · intro he a b ha hb
    have h0 := hget 0 hr 0 hc
    have h1 := hget (rows - 1) (by omega) (cols - 1) (by omega)
    have e1 : (rows - 1) * cols + (cols - 1) = rows * cols - 1 := by
      obtain ⟨r, rfl⟩ := Nat.exists_eq_succ_of_ne_zero hr.ne'
      simp [Nat.add_mul]; omega
    rw [e1, hb] at h1
    simp only [Nat.zero_mul, Nat.add_zero] at h0
    rw [ha] at h0
    injection h0 with h0; injection h1 with h1
    subst h0 h1 he
    simp only [SimTarget.make, hcast rows hr]
    ext <;> simp <;> ring

/-- C122 is false for targets that are not square: the coordinates of the centre are exchanged, so it is not the midpoint of
opposite corners. -/
theorem C122_negation (rows cols : Nat) (s : ℝ) (hr : 0 < rows) (hc : 0 < cols) (hs : s ≠ 0) (hne : rows ≠ cols) :
    ∃ a b, (SimTarget.make rows cols s).points[0]? = some a ∧ (SimTarget.make rows cols s).points[rows * cols - 1]? = some b ∧
      V3.smul (1 / 2) (a + b) ≠ (SimTarget.make rows cols s).center := by
  obtain ⟨-, hget, -, -⟩ := C122_partial rows cols s hr hc
  have h0 := hget 0 hr 0 hc
  have h1 := hget (rows - 1) (by omega) (cols - 1) (by omega)
  have e1 : (rows - 1) * cols + (cols - 1) = rows * cols - 1 := by
    obtain ⟨r, rfl⟩ := Nat.exists_eq_succ_of_ne_zero hr.ne'
    simp [Nat.add_mul]; omega
  rw [e1] at h1
  simp only [Nat.zero_mul, Nat.add_zero] at h0
  refine ⟨_, _, h0, h1, fun h => ?_⟩
  have hcast : ∀ k : Nat, 0 < k → ((k - 1 : Nat) : ℝ) = (k : ℝ) - 1 := fun k hk => by
    push_cast [Nat.cast_sub (show 1 ≤ k by omega)]; ring
  have hx := congrArg V3.x h
  simp [SimTarget.make, hcast _ hr, hcast _ hc] at hx
  apply hne
  have : ((cols : ℝ) - rows) * s = 0 := by linear_combination 2 * hx
  rcases mul_eq_zero.1 this with h | h
  · exact_mod_cast (sub_eq_zero.1 h).symm
  · exact absurd h hs

example : 0 < 5 ∧ 0 < 7 ∧ (5 : Nat) ≠ 7 ∧ (1 / 40 : ℝ) ≠ 0 := by norm_num

end RCT
