import Verif.Model.Validation
import Verif.Spec.HandEye
import Verif.Lemmas.Vec
import Verif.Lemmas.Frames

/-!
# Back-projection: C54, C55, C56
-/

namespace RCT
open Spec

/-! ## C54 Line-plane intersection -/

/-- The point lies on the line. -/
def OnLine (dir pt p : V3) : Prop := ∃ s : ℝ, p = ⟨pt.x + s * dir.x, pt.y + s * dir.y, pt.z + s * dir.z⟩

/-- The point lies in the plane. -/
def InPlane (normal pt p : V3) : Prop :=
  normal.x * (p.x - pt.x) + normal.y * (p.y - pt.y) + normal.z * (p.z - pt.z) = 0

/-- The dot product that decides about the exception. -/
def slope (normal dir : V3) : ℝ := normal.x * dir.x + normal.y * dir.y + normal.z * dir.z

theorem line_plane_unique {n pp l lp p q : V3} (h : slope n l ≠ 0) (hp : OnLine l lp p) (hq : OnLine l lp q)
    (hpp : InPlane n pp p) (hqp : InPlane n pp q) : p = q := by
  obtain ⟨s, rfl⟩ := hp
  obtain ⟨t, rfl⟩ := hq
  have : (s - t) * slope n l = 0 := by
    unfold InPlane at hpp hqp
    unfold slope
    simp only at hpp hqp
    linear_combination hpp - hqp
  have hst : s = t := by
    have := (mul_eq_zero.1 this).resolve_right h
    linarith
  rw [hst]

/-- A returned point is the only common point of line and plane. -/
theorem C54_point (n pp l lp : V3) (eps : ℝ) (he : 0 < eps) (p : V3) (h : linePlane n pp l lp eps = .ok p) :
    OnLine l lp p ∧ InPlane n pp p ∧ ∀ q, OnLine l lp q → InPlane n pp q → q = p := by
  unfold linePlane at h
  simp only at h
  split at h
  · cases h
  · rename_i hd
    have hs : l.dot n = slope n l := by unfold V3.dot slope; ring
    have h0 : slope n l ≠ 0 := by
      intro h0
      rw [hs, h0, abs_zero] at hd
      exact hd he
    simp only [Res.ok.injEq] at h
    have h1 : OnLine l lp p := by
      rw [← h]
      exact ⟨(pp - lp).dot n / l.dot n, by ext <;> simp⟩
    have h2 : InPlane n pp p := by
      rw [← h, hs]
      unfold InPlane
      simp only [V3.add_x, V3.add_y, V3.add_z, V3.smul_x, V3.smul_y, V3.smul_z]
      have e : (pp - lp).dot n / slope n l * slope n l = (pp - lp).dot n := div_mul_cancel₀ _ h0
      simp only [V3.dot, V3.sub_x, V3.sub_y, V3.sub_z] at e ⊢
      unfold slope at e ⊢
      linear_combination e
    exact ⟨h1, h2, fun q hq hqp => line_plane_unique h0 hq h1 hqp h2⟩

/-- The exception. -/
theorem C54_throws (n pp l lp : V3) (eps : ℝ) :
    (|slope n l| < eps ↔ linePlane n pp l lp eps = .throw .runtimeError) ∧
    (¬ |slope n l| < eps → (linePlane n pp l lp eps).Returns) := by
  have hs : l.dot n = slope n l := by unfold V3.dot slope; ring
  unfold linePlane
  simp only [hs]
  constructor
  · constructor
    · intro h; rw [if_pos h]
    · intro h
      by_contra hc
      rw [if_neg hc] at h
      cases h
  · intro h; rw [if_neg h]; exact ⟨_, rfl⟩

example : linePlane ⟨0, 0, 1⟩ ⟨0, 0, 5⟩ ⟨0, 0, 1⟩ 0 lineEps = .ok ⟨0, 0, 5⟩ ∧ 0 < lineEps := by
  unfold linePlane lineEps
  have : ¬ |(⟨0, 0, 1⟩ : V3).dot ⟨0, 0, 1⟩| < (1 : ℝ) / 10 ^ 6 := by norm_num [V3.dot]
  constructor
  · simp only
    rw [if_neg this]
    simp only [Res.ok.injEq]
    ext <;> simp [V3.dot]
  · norm_num

/-! ## C55 Back-projection inverts projection -/

/-- Direction of the viewing ray to a point, with length 1. -/
noncomputable def viewDir (q : V3) : V3 := ⟨q.x / q.norm, q.y / q.norm, q.z / q.norm⟩

/-- The plane normal in the camera frame. -/
def planeNormal (T : Iso) : V3 := ⟨T.R.m02, T.R.m12, T.R.m22⟩

/-- The viewing ray is not (almost) parallel to the plane. -/
def NotGrazing (T : Iso) (q : V3) : Prop := 1 / 10 ^ 6 ≤ |slope (planeNormal T) (viewDir q)|

def camMat (i : Intr) : M3 := ⟨i.fx, 0, i.cx, 0, i.fy, i.cy, 0, 0, 1⟩

theorem ray_of_pinhole {i : Intr} (hx : i.fx ≠ 0) (hy : i.fy ≠ 0) {q : V3} (hz : 0 < q.z) :
    ((camMat i).inverse.mulVec ⟨(pinhole i q).x, (pinhole i q).y, 1⟩).normalized = viewDir q := by
  have hdet : (camMat i).det = i.fx * i.fy := by simp [camMat, M3.det]
  have e : (camMat i).inverse.mulVec ⟨(pinhole i q).x, (pinhole i q).y, 1⟩ = V3.smul (1 / q.z) q := by
    have hz' := hz.ne'
    unfold camMat at hdet ⊢
    simp only [M3.inverse, M3.mulVec, hdet, pinhole]
    ext <;> simp only [V3.smul] <;> field_simp <;> ring
  have hq : q ≠ 0 := by rintro rfl; simp at hz
  have hne : V3.smul (1 / q.z) q ≠ 0 := by
    intro h0
    have := congrArg V3.z h0
    simp only [V3.smul_z, V3.zero_z] at this
    field_simp at this
    exact one_ne_zero this
  have hn : (V3.smul (1 / q.z) q).norm = 1 / q.z * q.norm := by
    unfold V3.norm
    have : (V3.smul (1 / q.z) q).normSq = (1 / q.z) ^ 2 * q.normSq := by simp only [V3.normSq, V3.dot, V3.smul]; ring
    rw [this, Real.sqrt_mul (by positivity), Real.sqrt_sq (by positivity)]
  rw [e, V3.normalized_of_ne hne, hn]
  have hz' := hz.ne'
  have hqn := (V3.norm_pos hq).ne'
  unfold viewDir
  ext <;> simp only [V3.smul] <;> field_simp

theorem plane_point {T : Iso} (hT : T.IsRigid) {p : V3} (hp : p.z = 0) : InPlane (planeNormal T) T.t (T.apply p) := by
  obtain ⟨c1, c2, c3, c4, c5, c6⟩ := M3.IsRot.cols hT
  unfold InPlane planeNormal Iso.apply M3.mulVec
  simp only [V3.add_x, V3.add_y, V3.add_z, hp]
  grind

open Classical in
/-- Backward projection of one pixel. -/
theorem backProject {T : Iso} (hT : T.IsRigid) {i : Intr} (hx : i.fx ≠ 0) (hy : i.fy ≠ 0) {p : V3} (hp : p.z = 0)
    (hz : 0 < (T.apply p).z) :
    (linePlane (planeNormal T) T.t ((camMat i).inverse.mulVec
        ⟨(pinhole i (T.apply p)).x, (pinhole i (T.apply p)).y, 1⟩).normalized 0 lineEps) =
      if NotGrazing T (T.apply p) then Res.ok (T.apply p) else Res.throw .runtimeError := by
  obtain ⟨q, hq⟩ : ∃ q, q = T.apply p := ⟨_, rfl⟩
  have hin := plane_point hT hp
  rw [← hq] at hz hin ⊢
  rw [ray_of_pinhole hx hy hz]
  have hq0 : q ≠ 0 := by rintro rfl; simp at hz
  split
  · rename_i hg
    obtain ⟨r, hr⟩ := (C54_throws (planeNormal T) T.t (viewDir q) 0 lineEps).2 (not_lt.2 hg)
    rw [hr]
    obtain ⟨-, -, hu⟩ := C54_point _ _ _ _ _ (by unfold lineEps; norm_num) _ hr
    rw [hu q ⟨q.norm, ?_⟩ hin]
    have := (V3.norm_pos hq0).ne'
    unfold viewDir
    ext <;> simp <;> field_simp
  · rename_i hg
    exact (C54_throws (planeNormal T) T.t (viewDir q) 0 lineEps).1.1 (not_le.1 hg)

/-- All plane points visible and not grazing: the back-projections are the points themselves. -/
theorem C55_roundtrip (T : Iso) (hT : RigidMotion T) (i : Intr) (hx : i.fx ≠ 0) (hy : i.fy ≠ 0) (ps : List V3)
    (h : ∀ p ∈ ps, p.z = 0 ∧ 0 < (T.apply p).z ∧ NotGrazing T (T.apply p)) :
    project3D (ps.map fun p => pinhole i (T.apply p)) T ⟨i.fx, 0, i.cx, 0, i.fy, i.cy, 0, 0, 1⟩ = .ok ps := by
  have hr := (rigid_iff T).2 hT
  have key : Res.mapList (fun ray => linePlane (planeNormal T) T.t ray 0 lineEps)
      ((ps.map fun p => pinhole i (T.apply p)).map fun s => ((camMat i).inverse.mulVec ⟨s.x, s.y, 1⟩).normalized) =
      .ok (ps.map T.apply) := by
    induction ps with
    | nil => rfl
    | cons p ps ih =>
      obtain ⟨h1, h2, h3⟩ := h p (by simp)
      have := backProject hr hx hy h1 h2
      rw [if_pos h3] at this
      simp only [List.map_cons, Res.mapList]
      rw [this, ih fun p hp => h p (List.mem_cons_of_mem _ hp)]
      rfl
  unfold project3D
  have key' := key
  unfold camMat planeNormal at key'
  simp only
  rw [key']
  simp only [Res.ok_bind, Res.ok.injEq, List.map_map]
  have : (fun p => T.inv.apply p) ∘ T.apply = id := by
    funext p
    exact Iso.inv_apply_apply hr p
  rw [this, List.map_id]

/-- A grazing view of a point: an exception instead of a wrong point. -/
theorem C55_grazing (T : Iso) (hT : RigidMotion T) (i : Intr) (hx : i.fx ≠ 0) (hy : i.fy ≠ 0) (p : V3) (hp : p.z = 0)
    (hz : 0 < (T.apply p).z) (hg : ¬ NotGrazing T (T.apply p)) :
    project3D [pinhole i (T.apply p)] T ⟨i.fx, 0, i.cx, 0, i.fy, i.cy, 0, 0, 1⟩ = .throw .runtimeError := by
  have := backProject ((rigid_iff T).2 hT) hx hy hp hz
  rw [if_neg hg] at this
  unfold camMat planeNormal at this
  unfold project3D
  simp only [List.map_cons, List.map_nil, Res.mapList]
  rw [this]
  rfl

/-- Every returned point lies in the plane, one per pixel. -/
theorem C55_plane (px : List V2) (T : Iso) (hT : RigidMotion T) (k : M3) (ps : List V3) (h : project3D px T k = .ok ps) :
    ps.length = px.length ∧ ∀ p ∈ ps, p.z = 0 := by
  have hr := (rigid_iff T).2 hT
  unfold project3D at h
  simp only [Res.bind_ok_iff, Res.ok.injEq] at h
  obtain ⟨qs, h1, rfl⟩ := h
  refine ⟨by have := Res.mapList_ok_length h1; simpa using this, ?_⟩
  intro p hp
  obtain ⟨q, hq, rfl⟩ := List.mem_map.1 hp
  rw [Res.mapList_ok_iff] at h1
  obtain ⟨n, hn, rfl⟩ := List.getElem_of_mem hq
  have hl := h1.length_eq
  have := (List.forall₂_iff_get.1 h1).2 n (by omega) hn
  simp only [List.get_eq_getElem] at this
  obtain ⟨-, h2, -⟩ := C54_point _ _ _ _ _ (by unfold lineEps; norm_num) _ this
  unfold InPlane at h2
  simp only [Iso.apply, Iso.inv, M3.mulVec, M3.tr, V3.add_z, V3.neg_z]
  linear_combination h2

/-- A tilted plane (3-4-5 rotation about x) in front of the camera meets the hypotheses of `C55_roundtrip`. -/
example : ∃ T : Iso, RigidMotion T ∧ T.R.m02 = 0 ∧ T.R.m12 ≠ 0 ∧ ∀ p ∈ [(⟨0, 0, 0⟩ : V3), ⟨1, 0, 0⟩],
    p.z = 0 ∧ 0 < (T.apply p).z ∧ NotGrazing T (T.apply p) := by
  refine ⟨⟨⟨1, 0, 0, 0, 3 / 5, -4 / 5, 0, 4 / 5, 3 / 5⟩, ⟨0, 0, 1⟩⟩, ?_, rfl, by norm_num, ?_⟩
  · rw [← rigid_iff]
    constructor
    · simp only [M3.tr, M3.mul_def, M3.one_def]
      ext <;> norm_num
    · norm_num [M3.det]
  · have key : ∀ x : ℝ, x * x ≤ 1 → NotGrazing ⟨⟨1, 0, 0, 0, 3 / 5, -4 / 5, 0, 4 / 5, 3 / 5⟩, ⟨0, 0, 1⟩⟩
        (Iso.apply ⟨⟨1, 0, 0, 0, 3 / 5, -4 / 5, 0, 4 / 5, 3 / 5⟩, ⟨0, 0, 1⟩⟩ ⟨x, 0, 0⟩) := by
      intro x hx
      have e : Iso.apply ⟨⟨1, 0, 0, 0, 3 / 5, -4 / 5, 0, 4 / 5, 3 / 5⟩, ⟨0, 0, 1⟩⟩ ⟨x, 0, 0⟩ = ⟨x, 0, 1⟩ := by
        ext <;> simp [Iso.apply, M3.mulVec]
      rw [e]
      have hs : (⟨x, 0, 1⟩ : V3).normSq = x * x + 1 := by simp [V3.normSq, V3.dot]
      have hpos : 0 < (⟨x, 0, 1⟩ : V3).norm := Real.sqrt_pos.2 (by rw [hs]; nlinarith)
      have hle : (⟨x, 0, 1⟩ : V3).norm ≤ 2 := by
        unfold V3.norm
        rw [Real.sqrt_le_left (by norm_num), hs]
        linarith
      unfold NotGrazing slope viewDir planeNormal
      rw [le_abs]
      left
      have : (3 : ℝ) / 5 / 2 ≤ 3 / 5 / (⟨x, 0, 1⟩ : V3).norm := div_le_div_of_nonneg_left (by norm_num) hpos hle
      have e2 : (0 : ℝ) * (x / (⟨x, 0, 1⟩ : V3).norm) + -4 / 5 * (0 / (⟨x, 0, 1⟩ : V3).norm) +
          3 / 5 * (1 / (⟨x, 0, 1⟩ : V3).norm) = 3 / 5 / (⟨x, 0, 1⟩ : V3).norm := by ring
      simp only
      rw [e2]
      refine le_trans ?_ this
      norm_num
    intro p hp
    simp only [List.mem_cons, List.not_mem_nil, or_false] at hp
    rcases hp with rfl | rfl
    · exact ⟨rfl, by norm_num [Iso.apply, M3.mulVec], key 0 (by norm_num)⟩
    · exact ⟨rfl, by norm_num [Iso.apply, M3.mulVec], key 1 (by norm_num)⟩

/-! ## C56 Errors of a set of observations -/

theorem foldAppend {α : Type} (f : α → Res (List ℝ)) (l : List α) (acc r : List ℝ) :
    Res.foldList (fun e a => (f a).bind fun x => .ok (e ++ x)) acc l = .ok r ↔
      ∃ rs, List.Forall₂ (fun a x => f a = .ok x) l rs ∧ r = acc ++ rs.flatten := by
  induction l generalizing acc r with
  | nil =>
    simp only [Res.foldList_nil, Res.ok.injEq]
    constructor
    · rintro rfl; exact ⟨[], .nil, by simp⟩
    · rintro ⟨rs, h, rfl⟩; cases h; simp
  | cons a l ih =>
    simp only [Res.foldList_cons, Res.bind_ok_iff]
    constructor
    · rintro ⟨s, ⟨x, hx, hs⟩, h⟩
      simp only [Res.ok.injEq] at hs
      subst hs
      obtain ⟨rs, h1, rfl⟩ := (ih _ _).1 h
      exact ⟨x :: rs, .cons hx h1, by simp⟩
    · rintro ⟨rs, h, rfl⟩
      cases h with
      | cons hx hr =>
        refine ⟨acc ++ _, ⟨_, hx, rfl⟩, (ih _ _).2 ⟨_, hr, by simp⟩⟩

/-- The errors of a set are the errors of its observations, in order. -/
theorem C56_concat (obs : List (Obs Corr2)) (i : Intr) (mc mt : Iso) (r : List ℝ) :
    projErr3Set obs i mc mt = .ok r ↔ ∃ rs, List.Forall₂ (fun o x => projErr3 o i mc mt = .ok x) obs rs ∧ r = rs.flatten := by
  unfold projErr3Set
  rw [foldAppend]
  simp

theorem projErr3_length {o : Obs Corr2} {i : Intr} {mc mt : Iso} {r : List ℝ} (h : projErr3 o i mc mt = .ok r) :
    r.length = o.corrs.length := by
  unfold projErr3 at h
  simp only [Res.bind_ok_iff, Res.ok.injEq] at h
  obtain ⟨ps, h1, rfl⟩ := h
  unfold project3D at h1
  simp only [Res.bind_ok_iff, Res.ok.injEq] at h1
  obtain ⟨qs, h2, rfl⟩ := h1
  have := Res.mapList_ok_length h2
  simp at this
  simp [this]

/-- One entry per correspondence. -/
theorem C56_count (obs : List (Obs Corr2)) (i : Intr) (mc mt : Iso) (r : List ℝ) (h : projErr3Set obs i mc mt = .ok r) :
    r.length = (features obs).length := by
  obtain ⟨rs, h1, rfl⟩ := (C56_concat obs i mc mt r).1 h
  clear h
  induction h1 with
  | nil => rfl
  | cons ha _ ih =>
    simp only [List.flatten_cons, List.length_append, features, List.flatMap_cons, List.length_map] at ih ⊢
    rw [ih, projErr3_length ha]

/-- Perfect data of a planar target that is seen under a non-grazing angle. -/
def PerfectPlanar (i : Intr) (mc mt : Iso) (o : Obs Corr2) : Prop :=
  ∀ c ∈ o.corrs, c.inTarget.z = 0 ∧
    (let q := Spec.targetInCamera mc o.toCameraMount o.toTargetMount mt c.inTarget
     0 < q.z ∧ c.inImage = pinhole i q ∧
      NotGrazing (mc.inv * (o.toCameraMount.inv * (o.toTargetMount * mt))) q)

theorem projErr3_perfect {o : Obs Corr2} {i : Intr} (hx : i.fx ≠ 0) (hy : i.fy ≠ 0) {mc mt : Iso} (h1 : RigidMotion mc)
    (h2 : RigidMotion mt) (h3 : RigidMotion o.toCameraMount) (h4 : RigidMotion o.toTargetMount)
    (h : PerfectPlanar i mc mt o) : projErr3 o i mc mt = .ok (o.corrs.map fun _ => 0) := by
  obtain ⟨T, hT⟩ : ∃ T, T = mc.inv * (o.toCameraMount.inv * (o.toTargetMount * mt)) := ⟨_, rfl⟩
  have hTe : mc.inv * o.toCameraMount.inv * o.toTargetMount * mt = T := by
    rw [hT, Iso.mul_assoc, Iso.mul_assoc]
  have hR : RigidMotion T := by
    rw [← rigid_iff] at *
    rw [hT]
    exact (h1.inv).mul (h3.inv.mul (h4.mul h2))
  have himg : o.corrs.map (fun c => c.inImage) = (o.corrs.map fun c => c.inTarget).map fun p => pinhole i (T.apply p) := by
    rw [List.map_map]
    apply List.map_congr_left
    intro c hc
    have := (h c hc).2.2.1
    rw [this]
    unfold Spec.targetInCamera
    rw [← hT]
    rfl
  have key := C55_roundtrip T hR i hx hy (o.corrs.map fun c => c.inTarget) (by
    intro p hp
    obtain ⟨c, hc, rfl⟩ := List.mem_map.1 hp
    obtain ⟨g1, g2, -, g4⟩ := h c hc
    unfold Spec.targetInCamera at g2 g4
    rw [← hT] at g2 g4
    exact ⟨g1, g2, g4⟩)
  unfold projErr3
  simp only
  rw [hTe, himg, key]
  simp only [Res.ok_bind, Res.ok.injEq]
  rw [List.zipWith_self, List.map_map]
  apply List.map_congr_left
  intro c _
  simp [V3.norm_eq_zero, V3.sub_eq_zero]

/-- Perfect data: every entry is zero. -/
theorem C56_perfect (obs : List (Obs Corr2)) (i : Intr) (hx : i.fx ≠ 0) (hy : i.fy ≠ 0) (mc mt : Iso)
    (h1 : RigidMotion mc) (h2 : RigidMotion mt)
    (h : ∀ o ∈ obs, RigidMotion o.toCameraMount ∧ RigidMotion o.toTargetMount ∧ PerfectPlanar i mc mt o) :
    ∃ r, projErr3Set obs i mc mt = .ok r ∧ r.length = (features obs).length ∧ ∀ e ∈ r, e = 0 := by
  have : projErr3Set obs i mc mt = .ok (obs.map fun o => o.corrs.map fun _ => (0 : ℝ)).flatten := by
    rw [C56_concat]
    refine ⟨_, ?_, rfl⟩
    rw [List.forall₂_map_right_iff, List.forall₂_same]
    intro o ho
    obtain ⟨a, b, c⟩ := h o ho
    exact projErr3_perfect hx hy h1 h2 a b c
  refine ⟨_, this, C56_count _ _ _ _ _ this, ?_⟩
  intro e he
  obtain ⟨l, hl, he⟩ := List.mem_flatten.1 he
  obtain ⟨o, -, rfl⟩ := List.mem_map.1 hl
  obtain ⟨c, -, rfl⟩ := List.mem_map.1 he
  rfl

/-- Conversely a zero entry means that the target point itself was back-projected: errors are distances. -/
theorem C56_distance (o : Obs Corr2) (i : Intr) (mc mt : Iso) (r : List ℝ) (h : projErr3 o i mc mt = .ok r) :
    ∃ ps, project3D (o.corrs.map fun c => c.inImage) (mc.inv * (o.toCameraMount.inv * (o.toTargetMount * mt)))
        ⟨i.fx, 0, i.cx, 0, i.fy, i.cy, 0, 0, 1⟩ = .ok ps ∧ ps.length = o.corrs.length ∧
      List.Forall₂ (fun (cp : Corr2 × V3) e => e = (cp.1.inTarget - cp.2).norm) (o.corrs.zip ps) r := by
  unfold projErr3 at h
  simp only [Res.bind_ok_iff, Res.ok.injEq] at h
  obtain ⟨ps, h1, rfl⟩ := h
  rw [Iso.mul_assoc, Iso.mul_assoc] at h1
  refine ⟨ps, h1, ?_, ?_⟩
  · have h2 := h1
    unfold project3D at h2
    simp only [Res.bind_ok_iff, Res.ok.injEq] at h2
    obtain ⟨qs, h3, rfl⟩ := h2
    have := Res.mapList_ok_length h3
    simpa using this
  · rw [List.zipWith_map_left]
    have : List.zipWith (fun (a : Corr2) (b : V3) => (a.inTarget - b).norm) o.corrs ps =
        (o.corrs.zip ps).map fun cp => (cp.1.inTarget - cp.2).norm := by
      rw [List.zip, List.map_zipWith]
    rw [this, List.forall₂_map_right_iff, List.forall₂_same]
    intro _ _
    rfl

/-- `C56_perfect` applies to a target in front of a fixed camera. -/
example : ∃ (o : Obs Corr2) (i : Intr), o.corrs.length = 1 ∧ i.fx ≠ 0 ∧ i.fy ≠ 0 ∧ RigidMotion o.toCameraMount ∧
    RigidMotion o.toTargetMount ∧ RigidMotion 1 ∧ PerfectPlanar i 1 1 o := by
  have h1 : RigidMotion 1 := (rigid_iff 1).1 Iso.IsRigid.one
  have h2 : RigidMotion ⟨1, ⟨0, 0, 2⟩⟩ := (rigid_iff ⟨1, ⟨0, 0, 2⟩⟩).1 M3.IsRot.one
  have e : (1 : Iso).inv * ((1 : Iso).inv * ((⟨1, ⟨0, 0, 2⟩⟩ : Iso) * 1)) = ⟨1, ⟨0, 0, 2⟩⟩ := by simp
  refine ⟨⟨[⟨⟨5, 6⟩, 0⟩], 1, ⟨1, ⟨0, 0, 2⟩⟩⟩, ⟨3, 4, 5, 6⟩, rfl, by norm_num, by norm_num, h1, h2, h1, ?_⟩
  intro c hc
  simp only [List.mem_cons, List.not_mem_nil, or_false] at hc
  subst hc
  have hq : Iso.apply ⟨1, ⟨0, 0, 2⟩⟩ 0 = ⟨0, 0, 2⟩ := by ext <;> simp [Iso.apply]
  unfold Spec.targetInCamera
  simp only [e, hq]
  refine ⟨rfl, by norm_num, by ext <;> simp [pinhole], ?_⟩
  have hn : (⟨0, 0, 2⟩ : V3).norm = 2 := by
    unfold V3.norm
    have : (⟨0, 0, 2⟩ : V3).normSq = 2 ^ 2 := by norm_num [V3.normSq, V3.dot]
    rw [this, Real.sqrt_sq (by norm_num)]
  unfold NotGrazing slope viewDir planeNormal
  simp only [hn]
  norm_num

end RCT
