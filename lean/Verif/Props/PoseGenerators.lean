import Verif.Model.Simulation
import Verif.Spec.Simulation
import Verif.Lemmas.PoseSpec
import Verif.Lemmas.Grid

/-!
# Simulated camera poses (C111 - C113)
-/

namespace RCT
open Spec

theorem V3.cross_normSq (a b : V3) : (a.cross b).normSq = a.normSq * b.normSq - a.dot b * a.dot b := by
  simp only [V3.normSq, V3.dot, V3.cross]; ring

theorem V3.normalized_dot {a : V3} (h : a ≠ 0) (b : V3) : a.normalized.dot b = a.dot b / a.norm := by
  rw [V3.normalized_of_ne h]
  simp only [V3.dot, V3.smul_x, V3.smul_y, V3.smul_z]; ring

theorem V3.normalized_of_unit {a : V3} (h : a.normSq = 1) : a.normalized = a := by
  have ha : a ≠ 0 := by rintro rfl; simp [V3.normSq, V3.dot] at h
  have hn : a.norm = 1 := by unfold V3.norm; rw [h]; simp
  rw [V3.normalized_of_ne ha, hn]; ext <;> simp

/-- The three axes of `lookAt` when the viewing direction is not parallel to `up`. -/
theorem lookAt_axes {d up : V3} (h : d.cross up ≠ 0) :
    ∃ x y z : V3, z = d.normalized ∧ x = (z.cross up).normalized ∧ y = (z.cross x).normalized ∧
      x.normSq = 1 ∧ z.normSq = 1 ∧ x.dot z = 0 ∧ y = z.cross x ∧ x.dot up = 0 ∧ y.dot up < 0 := by
  have hd : d ≠ 0 := by rintro rfl; apply h; ext <;> simp [V3.cross]
  have hn := V3.norm_pos hd
  have hz : d.normalized.normSq = 1 := V3.normSq_normalized hd
  have hc : d.normalized.cross up = V3.smul (1 / d.norm) (d.cross up) := by
    rw [V3.normalized_of_ne hd]; ext <;> simp [V3.cross] <;> ring
  have hc0 : d.normalized.cross up ≠ 0 := by
    intro h0
    apply h
    have h1 : d.cross up = V3.smul d.norm (d.normalized.cross up) := by
      rw [hc]; ext <;> simp [hn.ne']
    rw [h1, h0]; ext <;> simp
  have hx := V3.normSq_normalized hc0
  have hpos := V3.norm_pos hc0
  have hxz : (d.normalized.cross up).normalized.dot d.normalized = 0 := by
    rw [V3.normalized_dot hc0]
    have : (d.normalized.cross up).dot d.normalized = 0 := by simp only [V3.dot, V3.cross]; ring
    rw [this, zero_div]
  have hxu : (d.normalized.cross up).normalized.dot up = 0 := by
    rw [V3.normalized_dot hc0]
    have : (d.normalized.cross up).dot up = 0 := by simp only [V3.dot, V3.cross]; ring
    rw [this, zero_div]
  refine ⟨_, _, _, rfl, rfl, rfl, hx, hz, hxz, ?_, hxu, ?_⟩
  · apply V3.normalized_of_unit
    rw [V3.cross_normSq, hz, hx]
    have : d.normalized.dot (d.normalized.cross up).normalized = 0 := by
      rw [← hxz]; simp only [V3.dot]; ring
    rw [this]; ring
  · have hu : (d.normalized.cross (d.normalized.cross up).normalized).normSq = 1 := by
      rw [V3.cross_normSq, hz, hx]
      have : d.normalized.dot (d.normalized.cross up).normalized = 0 := by
        rw [← hxz]; simp only [V3.dot]; ring
      rw [this]; ring
    rw [V3.normalized_of_unit hu]
    have e : (d.normalized.cross (d.normalized.cross up).normalized).dot up =
        -((d.normalized.cross up).normalized.dot (d.normalized.cross up)) := by
      simp only [V3.dot, V3.cross]; ring
    have hs : (d.normalized.cross up).dot (d.normalized.cross up) =
        (d.normalized.cross up).norm * (d.normalized.cross up).norm := (V3.norm_sq _).symm
    rw [e, V3.normalized_dot hc0, hs]
    have : (d.normalized.cross up).norm * (d.normalized.cross up).norm / (d.normalized.cross up).norm =
        (d.normalized.cross up).norm := by field_simp
    rw [this]; linarith

theorem frame_isRot {x y z : V3} (hx : x.normSq = 1) (hz : z.normSq = 1) (hxz : x.dot z = 0) (hy : y = z.cross x) :
    (⟨x.x, y.x, z.x, x.y, y.y, z.y, x.z, y.z, z.z⟩ : M3).IsRot := by
  subst hy
  simp only [V3.normSq, V3.dot] at hx hz hxz
  apply M3.IsRot.of_cols
  · exact hx
  · simp only [V3.cross]
    linear_combination hz * (x.x * x.x + x.y * x.y + x.z * x.z) + hx - hxz * (x.x * z.x + x.y * z.y + x.z * z.z)
  · exact hz
  · simp only [V3.cross]; ring
  · exact hxz
  · simp only [V3.cross]; ring
  · simp only [M3.det, V3.cross]
    linear_combination hz * (x.x * x.x + x.y * x.y + x.z * x.z) + hx - hxz * (x.x * z.x + x.y * z.y + x.z * z.z)

theorem lookAt_rigid {o e up : V3} (h : (e - o).cross up ≠ 0) : (lookAt o e up).IsRigid := by
  obtain ⟨x, y, z, hz, hx, hy, h1, h2, h3, h4, -, -⟩ := lookAt_axes h
  subst hz hx
  have := frame_isRot h1 h2 h3 h4
  rw [hy] at this
  exact this

theorem lookAt_ahead {o e up : V3} (h : (e - o).cross up ≠ 0) : StraightAhead (lookAt o e up) e (e - o).norm := by
  have hd : e - o ≠ 0 := by intro h0; apply h; rw [h0]; ext <;> simp [V3.cross]
  have hn := V3.norm_pos hd
  refine ⟨hn, ?_⟩
  simp only [Iso.apply, lookAt, M3.mulVec]
  rw [V3.normalized_of_ne hd]
  ext <;> simp <;> field_simp <;> ring

/-- C111 (positive part). Full statement: for all distinct camera position and target and every up direction, `lookAt` is a
rigid pose at the camera position that has the target straight ahead, no up component along the image rows, and the up
direction pointing up in the image. It holds whenever the viewing direction is not parallel to the up direction. -/
theorem C111_partial (o e up : V3) (h : ¬ Parallel (e - o) up) :
    RigidMotion (lookAt o e up) ∧ (lookAt o e up).t = o ∧ StraightAhead (lookAt o e up) e (e - o).norm ∧
      (⟨(lookAt o e up).R.m00, (lookAt o e up).R.m10, (lookAt o e up).R.m20⟩ : V3).dot up = 0 ∧
      (⟨(lookAt o e up).R.m01, (lookAt o e up).R.m11, (lookAt o e up).R.m21⟩ : V3).dot up < 0 := by
  refine ⟨(rigid_iff _).1 (lookAt_rigid h), rfl, lookAt_ahead h, ?_⟩
  obtain ⟨x, y, z, hz, hx, hy, -, -, -, -, h5, h6⟩ := lookAt_axes h
  subst hz hx hy
  exact ⟨h5, h6⟩

example : ¬ Parallel ((⟨0, 0, 0⟩ : V3) - ⟨0, 0, 2⟩) ⟨1, 0, 0⟩ := by
  intro h; have := congrArg V3.y h; simp [V3.cross] at this

theorem lookAt_not_rigid {o e up : V3} (h : (e - o).cross up = 0) : ¬ (lookAt o e up).IsRigid := by
  intro hr
  have hc : (e - o).normalized.cross up = 0 := by
    by_cases hd : e - o = 0
    · rw [hd, V3.normalized_zero]; ext <;> simp [V3.cross]
    · rw [V3.normalized_of_ne hd]
      have hx := congrArg V3.x h; have hy := congrArg V3.y h; have hz := congrArg V3.z h
      simp only [V3.cross, V3.zero_x, V3.zero_y, V3.zero_z] at hx hy hz
      ext <;> simp only [V3.cross, V3.smul_x, V3.smul_y, V3.smul_z, V3.zero_x, V3.zero_y, V3.zero_z]
      · linear_combination (1 / (e - o).norm) * hx
      · linear_combination (1 / (e - o).norm) * hy
      · linear_combination (1 / (e - o).norm) * hz
  have h1 := (M3.IsRot.cols hr).1
  simp only [lookAt, hc, V3.normalized_zero] at h1
  simp at h1

/-- C111: `lookAt` is rigid exactly when the viewing direction and the up direction are not parallel. -/
theorem C111_partial_iff (o e up : V3) : RigidMotion (lookAt o e up) ↔ ¬ Parallel (e - o) up := by
  rw [← rigid_iff]
  constructor
  · intro h hp; exact lookAt_not_rigid hp h
  · exact fun h => lookAt_rigid h

/-- C111 is false for a camera that looks along the up direction: the result is never a rigid pose. -/
theorem C111_negation (o up : V3) (k : ℝ) : ¬ RigidMotion (lookAt o (o + V3.smul k up) up) := by
  rw [C111_partial_iff, not_not]
  unfold Parallel
  ext <;> simp [V3.cross] <;> ring

/-! ### Pose generators -/

theorem rotZ_isRot (a : ℝ) : (AngleAxis.toMat ⟨a, ⟨0, 0, 1⟩⟩).IsRot :=
  AngleAxis.toMat_isRot (by simp [V3.normSq, V3.dot])

theorem rotZ_apply (a d : ℝ) : (⟨AngleAxis.toMat ⟨a, ⟨0, 0, 1⟩⟩, 0⟩ : Iso).apply ⟨0, 0, d⟩ = ⟨0, 0, d⟩ := by
  ext <;> simp [Iso.apply, M3.mulVec, AngleAxis.toMat]

theorem translateBy_t (T : Iso) (v : V3) : (T.translateBy v).t = T.apply v := rfl

theorem view_dir (T : Iso) (pos : V3) : T.t - T.apply pos = -(T.R.mulVec pos) := by
  ext <;> simp [Iso.apply]

theorem V3.norm_neg (a : V3) : (-a).norm = a.norm := by simp [V3.norm, V3.normSq, V3.dot]

/-- A place whose direction from the target (in the frame of the poses) is not the x axis gives a usable camera pose. -/
theorem orientCamera_good {T off : Iso} (hT : T.IsRigid) (hoff : off.IsRigid) (zRot : ℝ) {pos : V3}
    (h : ¬ Parallel (T.R.mulVec pos) ⟨1, 0, 0⟩) : CameraFrom off T pos (orientCamera T off zRot pos) := by
  have hp : (T.t - T.apply pos).cross ⟨1, 0, 0⟩ ≠ 0 := by
    rw [view_dir]; intro h0; apply h
    have hx := congrArg V3.x h0; have hy := congrArg V3.y h0; have hz := congrArg V3.z h0
    unfold Parallel
    ext
    · simp [V3.cross]
    · simpa [V3.cross] using hy
    · simpa [V3.cross] using hz
  have hl := lookAt_rigid hp
  obtain ⟨h1, h2⟩ := lookAt_ahead hp
  have hn : (T.t - T.apply pos).norm = pos.norm := by rw [view_dir, V3.norm_neg, M3.IsRot.norm hT]
  rw [hn] at h1 h2
  refine ⟨(rigid_iff _).1 ((hoff.mul hl).mul (rotZ_isRot zRot)), ?_, h1, ?_⟩
  · simp [orientCamera, Iso.apply, lookAt, V3.zero_add, Iso.translateBy]
  · unfold orientCamera
    rw [Iso.apply_mul, rotZ_apply, Iso.apply_mul, translateBy_t, h2]

theorem orientCamera_bad {T off : Iso} (hoff : off.IsRigid) (zRot : ℝ) {pos : V3}
    (h : Parallel (T.R.mulVec pos) ⟨1, 0, 0⟩) : ¬ RigidMotion (orientCamera T off zRot pos) := by
  intro hr
  have hr := (rigid_iff _).2 hr
  have hp : (T.t - (T.translateBy pos).t).cross ⟨1, 0, 0⟩ = 0 := by
    rw [translateBy_t, view_dir]
    have hx := congrArg V3.x h; have hy := congrArg V3.y h; have hz := congrArg V3.z h
    ext
    · simp [V3.cross]
    · simpa [V3.cross] using hy
    · simpa [V3.cross] using hz
  apply lookAt_not_rigid hp
  have hz : (⟨AngleAxis.toMat ⟨zRot, ⟨0, 0, 1⟩⟩, 0⟩ : Iso).IsRigid := rotZ_isRot zRot
  have e : lookAt (T.translateBy pos).t T.t ⟨1, 0, 0⟩ =
      off.inv * (orientCamera T off zRot pos * (⟨AngleAxis.toMat ⟨zRot, ⟨0, 0, 1⟩⟩, 0⟩ : Iso).inv) := by
    unfold orientCamera
    rw [Iso.mul_assoc (off * _), Iso.mul_inv hz, Iso.mul_one, Iso.inv_mul_cancel_left hoff]
  rw [e]
  exact hoff.inv.mul (hr.mul hz.inv)

theorem linSpaced_length (n : Nat) (a b : ℝ) : (linSpaced n a b).length = n := by
  unfold linSpaced; split_ifs with h <;> simp [h]

theorem linSpaced_get {n i : Nat} (hn : n ≠ 1) (hi : i < n) (a b : ℝ) :
    (linSpaced n a b)[i]? = some (a + (i : ℝ) * ((b - a) / ((n : ℝ) - 1))) := by
  unfold linSpaced; rw [if_neg hn]; simp [hi]

/-- C112 (cone). For every rigid target frame and offset the generator returns `n` poses; the pose with number `i` is a
usable camera on the cone of radius `r` and height `h`, unless the camera would look along the x axis. -/
theorem C112_partial_cone (r h : ℝ) (n : Nat) (zRot : ℝ) (off T : Iso) (hT : RigidMotion T) (hoff : RigidMotion off) :
    (conicalPoses r h n zRot off T).length = n ∧
    ∀ i < n, ∃ (pos : V3) (P : Iso), (conicalPoses r h n zRot off T)[i]? = some P ∧
      pos.x = r * Real.cos (2 * Real.pi * i / n) ∧ pos.y = r * Real.sin (2 * Real.pi * i / n) ∧ pos.z = h ∧
      (¬ Parallel (T.R.mulVec pos) ⟨1, 0, 0⟩ → CameraFrom off T pos P) := by
  refine ⟨by simp [conicalPoses], fun i hi => ?_⟩
  have e : (i : ℝ) * (2 * Real.pi / n) = 2 * Real.pi * i / n := by ring
  refine ⟨⟨r * Real.cos (2 * Real.pi * i / n), r * Real.sin (2 * Real.pi * i / n), h⟩,
    orientCamera T off zRot ⟨r * Real.cos (2 * Real.pi * i / n), r * Real.sin (2 * Real.pi * i / n), h⟩, ?_, rfl, rfl, rfl, fun hp =>
      orientCamera_good ((rigid_iff _).2 hT) ((rigid_iff _).2 hoff) zRot hp⟩
  simp [conicalPoses, hi, e]

/-- C112 (cone, target axes parallel to the axes of the pose frame): all poses are usable if the height is not zero. -/
theorem C112_partial_cone_aligned (r h : ℝ) (n : Nat) (zRot : ℝ) (off : Iso) (t : V3) (hoff : RigidMotion off) (hh : h ≠ 0) :
    ∀ P ∈ conicalPoses r h n zRot off ⟨1, t⟩, ∃ pos : V3, pos.x ^ 2 + pos.y ^ 2 = r ^ 2 ∧ pos.z = h ∧
      CameraFrom off ⟨1, t⟩ pos P := by
  intro P hP
  have hT : (⟨1, t⟩ : Iso).IsRigid := M3.IsRot.one
  simp only [conicalPoses, List.mem_map, List.mem_range] at hP
  obtain ⟨i, -, rfl⟩ := hP
  refine ⟨_, ?_, rfl, orientCamera_good hT ((rigid_iff _).2 hoff) zRot ?_⟩
  · have := Real.sin_sq_add_cos_sq ((i : ℝ) * (2 * Real.pi / n))
    simp only
    linear_combination r ^ 2 * this
  · intro h0
    have := congrArg V3.y h0
    simp [V3.cross] at this
    exact hh this

/-- C112 (grid). `side * side` poses; the pose with number `i * side + j` is a usable camera at the grid place `(i, j)`
centred above the target at height `h`, unless the camera would look along the x axis. -/
theorem C112_partial_grid (spacing h : ℝ) (side : Nat) (zRot : ℝ) (off T : Iso) (hT : RigidMotion T) (hoff : RigidMotion off) :
    (gridPoses spacing h side zRot off T).length = side * side ∧
    ∀ i < side, ∀ j < side, ∃ (pos : V3) (P : Iso), (gridPoses spacing h side zRot off T)[i * side + j]? = some P ∧
      pos.x = ((i : ℝ) - ((side : ℝ) - 1) / 2) * spacing ∧ pos.y = ((j : ℝ) - ((side : ℝ) - 1) / 2) * spacing ∧ pos.z = h ∧
      (¬ Parallel (T.R.mulVec pos) ⟨1, 0, 0⟩ → CameraFrom off T pos P) := by
  have hc : linSpaced side (-1 * (((side - 1 : Nat) : ℝ) / 2 * spacing)) (((side - 1 : Nat) : ℝ) / 2 * spacing) =
      (List.range side).map fun (i : Nat) => ((i : ℝ) - ((side : ℝ) - 1) / 2) * spacing := by
    unfold linSpaced
    split_ifs with h1
    · subst h1; simp
    · apply List.map_congr_left
      intro i hi
      have hs : 2 ≤ side := by have := List.mem_range.1 hi; omega
      have e : ((side - 1 : Nat) : ℝ) = (side : ℝ) - 1 := by push_cast [Nat.cast_sub (show 1 ≤ side by omega)]; ring
      have hne : (side : ℝ) - 1 ≠ 0 := by
        have : (2 : ℝ) ≤ side := by exact_mod_cast hs
        linarith
      rw [e]; field_simp; ring
  have hg : gridPoses spacing h side zRot off T = gridList side side fun i j =>
      orientCamera T off zRot ⟨((i : ℝ) - ((side : ℝ) - 1) / 2) * spacing, ((j : ℝ) - ((side : ℝ) - 1) / 2) * spacing, h⟩ := by
    unfold gridPoses gridList
    simp only [hc, List.flatMap_map, List.map_map]
    rfl
  rw [hg]
  refine ⟨gridList_length _ _ _, fun i hi j hj => ⟨_, _, gridList_get _ _ _ i j hi hj, rfl, rfl, rfl, fun hp =>
    orientCamera_good ((rigid_iff _).2 hT) ((rigid_iff _).2 hoff) zRot hp⟩⟩

/-- C112 (hemisphere, at least two angles in each direction). -/
theorem hemi_eq (r : ℝ) {n m : Nat} (hn : 2 ≤ n) (hm : 2 ≤ m) (zRot : ℝ) (off T : Iso) :
    hemispherePoses r n m zRot off T = gridList n m fun a b => orientCamera T off zRot
      ⟨r * Real.cos (Real.pi * a / (n - 1)) * Real.sin (Real.pi * b / (m - 1)),
       r * Real.sin (Real.pi * a / (n - 1)) * Real.sin (Real.pi * b / (m - 1)), r * Real.cos (Real.pi * b / (m - 1))⟩ := by
  have e : ∀ k : Nat, 2 ≤ k → linSpaced k 0 Real.pi = (List.range k).map fun (i : Nat) => Real.pi * i / (k - 1) := by
    intro k hk
    unfold linSpaced
    rw [if_neg (by omega)]
    apply List.map_congr_left
    intro i _
    ring
  unfold hemispherePoses gridList
  rw [e n hn, e m hm]
  simp only [List.flatMap_map, List.map_map]
  rfl

/-- C112 (hemisphere). `n * m` poses; the pose with number `a * m + b` is a usable camera on the sphere of radius `r` at the
angles `a π / (n - 1)` and `b π / (m - 1)`, unless the camera would look along the x axis. -/
theorem C112_partial_hemisphere (r : ℝ) (n m : Nat) (hn : 2 ≤ n) (hm : 2 ≤ m) (zRot : ℝ) (off T : Iso)
    (hT : RigidMotion T) (hoff : RigidMotion off) :
    (hemispherePoses r n m zRot off T).length = n * m ∧
    ∀ a < n, ∀ b < m, ∃ (pos : V3) (P : Iso), (hemispherePoses r n m zRot off T)[a * m + b]? = some P ∧
      pos.x = r * Real.cos (Real.pi * a / (n - 1)) * Real.sin (Real.pi * b / (m - 1)) ∧
      pos.y = r * Real.sin (Real.pi * a / (n - 1)) * Real.sin (Real.pi * b / (m - 1)) ∧
      pos.z = r * Real.cos (Real.pi * b / (m - 1)) ∧ pos.normSq = r ^ 2 ∧
      (¬ Parallel (T.R.mulVec pos) ⟨1, 0, 0⟩ → CameraFrom off T pos P) := by
  rw [hemi_eq r hn hm]
  refine ⟨gridList_length _ _ _, fun a ha b hb => ⟨_, _, gridList_get _ _ _ a b ha hb, rfl, rfl, rfl, ?_, fun hp =>
    orientCamera_good ((rigid_iff _).2 hT) ((rigid_iff _).2 hoff) zRot hp⟩⟩
  have h1 := Real.sin_sq_add_cos_sq (Real.pi * a / (n - 1))
  have h2 := Real.sin_sq_add_cos_sq (Real.pi * b / (m - 1))
  simp only [V3.normSq, V3.dot]
  linear_combination r ^ 2 * Real.sin (Real.pi * b / (m - 1)) ^ 2 * h1 + r ^ 2 * h2

example : ∃ (T off : Iso) (pos : V3), RigidMotion T ∧ RigidMotion off ∧ pos = ⟨1, 1, 2⟩ ∧
    ¬ Parallel (T.R.mulVec pos) ⟨1, 0, 0⟩ :=
  ⟨1, 1, _, (rigid_iff _).1 Iso.IsRigid.one, (rigid_iff _).1 Iso.IsRigid.one, rfl, by
    intro h; have := congrArg V3.y h; simp [V3.cross] at this⟩

/-- C112 is false for the hemisphere: with an odd number of polar angles there is always a pose that is not rigid (the one
on the x axis, which is also the up direction), for target frames whose axes are those of the pose frame. -/
theorem C112_negation (r : ℝ) (n k : Nat) (hn : 2 ≤ n) (hk : 1 ≤ k) (zRot : ℝ) (off : Iso) (t : V3) (hoff : RigidMotion off) :
    ∃ P ∈ hemispherePoses r n (2 * k + 1) zRot off ⟨1, t⟩, ¬ RigidMotion P := by
  rw [hemi_eq r hn (by omega)]
  refine ⟨_, mem_gridList.2 ⟨0, k, by omega, by omega, rfl⟩, orientCamera_bad ((rigid_iff _).2 hoff) zRot ?_⟩
  have e : Real.pi * (k : ℝ) / (((2 * k + 1 : Nat) : ℝ) - 1) = Real.pi / 2 := by
    have : (k : ℝ) ≠ 0 := by exact_mod_cast (by omega : k ≠ 0)
    push_cast; field_simp; ring
  rw [e]
  unfold Parallel
  ext <;> simp [V3.cross]

/-! ### Random rotation about the optical axis -/

/-- C113 (positive part): the generator returns the poses of the wrapped generator, in order and unchanged. -/
theorem C113_partial (E : Engine) (pg : Iso → List Iso) (lo hi : ℝ) (s : E.St) (T : Iso) :
    (randomZRotPoses E pg lo hi s T).1 = pg T := rfl

/-- C113 is false. Full statement: every pose is the corresponding pose of the wrapped generator, turned about its own z
axis by an angle between the bounds. Whatever the engine draws, no pose is turned by such an angle when the interval
excludes the full turns. -/
theorem C113_negation (E : Engine) (pg : Iso → List Iso) (lo hi : ℝ) (s : E.St) (T : Iso) (hlo : 0 < lo)
    (hhi : hi < 2 * Real.pi) (i : Nat) (P Q : Iso) (hP : (pg T)[i]? = some P) (hr : RigidMotion P)
    (hQ : (randomZRotPoses E pg lo hi s T).1[i]? = some Q) :
    ¬ ∃ a, lo ≤ a ∧ a ≤ hi ∧ Q = P.rotateBy ⟨a, ⟨0, 0, 1⟩⟩ := by
  rintro ⟨a, h1, h2, h3⟩
  rw [C113_partial, hP] at hQ
  cases hQ
  have hP' := (rigid_iff _).2 hr
  have h4 : (P.inv * P) = P.inv * P.rotateBy ⟨a, ⟨0, 0, 1⟩⟩ := by rw [← h3]
  unfold Iso.rotateBy at h4
  rw [Iso.inv_mul_cancel_left hP', Iso.inv_mul hP'] at h4
  have h5 := congrArg (fun T : Iso => T.R.m00) h4
  simp [AngleAxis.toMat] at h5
  have h6 := (Real.cos_eq_one_iff_of_lt_of_lt (by linarith [Real.pi_pos]) (by linarith)).1 h5.symm
  linarith

example : ∃ (pg : Iso → List Iso) (P : Iso), (pg 1)[0]? = some P ∧ RigidMotion P ∧ (0 : ℝ) < 1 ∧ (2 : ℝ) < 2 * Real.pi :=
  ⟨fun T => [T], 1, rfl, (rigid_iff _).1 Iso.IsRigid.one, one_pos, by linarith [Real.pi_gt_three]⟩

end RCT
