import Verif.Lemmas.RankPair
import Verif.Lemmas.Zhang
import Mathlib.Tactic.IntervalCases

/-!
# Jacobians with independent columns
-/

namespace RCT

open Spec Filter Topology

/-- A pose only keeps its orientation to first order if its rotation vector does not change, except after full turns. -/
theorem turn_injective {r d : V3} (hr : ¬ FullTurns r) (h : poseTurn r d = 0) : d = 0 := by
  by_cases hr0 : r = 0
  · rwa [poseTurn, if_pos hr0] at h
  rw [poseTurn, if_neg hr0] at h
  have hn := (V3.norm_pos hr0).ne'
  have hcos : Real.cos r.norm ≠ 1 := by
    intro hc
    obtain ⟨n, hn⟩ := (Real.cos_eq_one_iff _).1 hc
    exact hr ⟨hr0, n, hn.symm⟩
  obtain ⟨n, hnd⟩ : ∃ n, n = V3.smul (1 / r.norm) r := ⟨_, rfl⟩
  have hn1 : n.x * n.x + n.y * n.y + n.z * n.z = 1 := by
    have := V3.normSq_normalized hr0
    rw [V3.normalized_of_ne hr0, ← hnd] at this
    exact this
  unfold turnSpeed at h
  simp only [← hnd] at h
  obtain ⟨a, ha⟩ : ∃ a, a = n.dot d := ⟨_, rfl⟩
  rw [← ha] at h
  generalize r.norm = t at hn hcos h
  obtain ⟨m, hm⟩ : ∃ m, m = V3.smul (1 / t) (d - V3.smul a n) := ⟨_, rfl⟩
  rw [← hm] at h
  have hdm : d = V3.smul a n + V3.smul t m := by
    rw [hm]; ext <;> simp [V3.smul] <;> field_simp <;> ring
  have hnm : n.x * m.x + n.y * m.y + n.z * m.z = 0 := by
    have : t * (n.x * m.x + n.y * m.y + n.z * m.z) = 0 := by
      rw [hdm] at ha
      simp only [V3.dot, V3.smul, V3.add_x, V3.add_y, V3.add_z] at ha
      linear_combination -ha - a * hn1
    exact (mul_eq_zero.1 this).resolve_left hn
  have hx := congrArg V3.x h; have hy := congrArg V3.y h; have hz := congrArg V3.z h
  simp only [V3.smul, V3.cross, V3.add_x, V3.add_y, V3.add_z, V3.zero_x, V3.zero_y, V3.zero_z] at hx hy hz
  have ha0 : a = 0 := by
    linear_combination n.x * hx + n.y * hy + n.z * hz - a * hn1 - Real.sin t * hnm
  have hmm : (1 - Real.cos t) * (m.x * m.x + m.y * m.y + m.z * m.z) = 0 := by
    have e : (1 - Real.cos t) * ((n.y * m.z - n.z * m.y) * (n.y * m.z - n.z * m.y) + (n.z * m.x - n.x * m.z) * (n.z * m.x - n.x * m.z) +
        (n.x * m.y - n.y * m.x) * (n.x * m.y - n.y * m.x)) = 0 := by
      linear_combination (n.y * m.z - n.z * m.y) * hx + (n.z * m.x - n.x * m.z) * hy + (n.x * m.y - n.y * m.x) * hz
    have l : (n.y * m.z - n.z * m.y) * (n.y * m.z - n.z * m.y) + (n.z * m.x - n.x * m.z) * (n.z * m.x - n.x * m.z) +
        (n.x * m.y - n.y * m.x) * (n.x * m.y - n.y * m.x) = m.x * m.x + m.y * m.y + m.z * m.z := by
      linear_combination (m.x * m.x + m.y * m.y + m.z * m.z) * hn1 - (n.x * m.x + n.y * m.y + n.z * m.z) * hnm
    rw [l] at e; exact e
  have hm0 : m = 0 := V3.normSq_eq_zero.1 ((mul_eq_zero.1 hmm).resolve_left fun h => hcos (by linarith))
  rw [hdm, ha0, hm0]
  ext <;> simp [V3.smul]

theorem cross_two_zero {w e g : V3} (h : e.cross g ≠ 0) (h1 : w.cross e = 0) (h2 : w.cross g = 0) : w = 0 := by
  have ax := congrArg V3.x h1; have ay := congrArg V3.y h1; have az := congrArg V3.z h1
  have bx := congrArg V3.x h2; have by' := congrArg V3.y h2; have bz := congrArg V3.z h2
  simp only [V3.cross, V3.zero_x, V3.zero_y, V3.zero_z] at ax ay az bx by' bz
  have key : ∀ t : ℝ, t * (e.y * g.z - e.z * g.y) = 0 → t * (e.z * g.x - e.x * g.z) = 0 → t * (e.x * g.y - e.y * g.x) = 0 → t = 0 := by
    intro t k1 k2 k3
    by_contra ht
    exact h (V3.ext ((mul_eq_zero.1 k1).resolve_left ht) ((mul_eq_zero.1 k2).resolve_left ht) ((mul_eq_zero.1 k3).resolve_left ht))
  ext
  · exact key _ (by linear_combination g.y * ay + g.z * az + e.x * bx) (by linear_combination e.x * by' - g.x * ay) (by linear_combination e.x * bz - g.x * az)
  · exact key _ (by linear_combination e.y * bx - g.y * ax) (by linear_combination g.x * ax + g.z * az + e.y * by') (by linear_combination e.y * bz - g.y * az)
  · exact key _ (by linear_combination e.z * bx - g.z * ax) (by linear_combination e.z * by' - g.z * ay) (by linear_combination g.x * ax + g.y * ay + e.z * bz)

/-- The velocity field of a rigid motion that vanishes on a triangle is zero. -/
theorem field_zero3 {T : Iso} (hT : T.IsRigid) {w v a b c : V3} (h : Triangle3 a b c) (ha : w.cross (T.apply a) + v = 0)
    (hb : w.cross (T.apply b) + v = 0) (hc : w.cross (T.apply c) + v = 0) : w = 0 ∧ v = 0 := by
  obtain ⟨e, he⟩ : ∃ e, e = T.apply b - T.apply a := ⟨_, rfl⟩
  obtain ⟨g, hg⟩ : ∃ g, g = T.apply c - T.apply a := ⟨_, rfl⟩
  have heg : e.cross g ≠ 0 := by
    have h1 := triangle3_iff.1 h
    have e1 : e = T.R.mulVec (b - a) := by rw [he, M3.mulVec_sub]; ext <;> simp [Iso.apply]
    have e2 : g = T.R.mulVec (c - a) := by rw [hg, M3.mulVec_sub]; ext <;> simp [Iso.apply]
    rw [e1, e2, M3.IsRot.cross hT]
    intro h0
    apply h1
    have := congrArg (fun v => T.R.tr.mulVec v) h0
    rw [← M3.mulVec_mul, hT.1, M3.one_mulVec] at this
    rw [this]; ext <;> simp [M3.mulVec]
  have hw : w = 0 := by
    have k1 : w.cross e = 0 := by
      rw [he]
      have ax := congrArg V3.x ha; have ay := congrArg V3.y ha; have az := congrArg V3.z ha
      have bx := congrArg V3.x hb; have by' := congrArg V3.y hb; have bz := congrArg V3.z hb
      simp only [V3.cross, V3.add_x, V3.add_y, V3.add_z, V3.zero_x, V3.zero_y, V3.zero_z] at ax ay az bx by' bz
      ext <;> simp only [V3.cross, V3.sub_x, V3.sub_y, V3.sub_z, V3.zero_x, V3.zero_y, V3.zero_z] <;> linarith
    have k2 : w.cross g = 0 := by
      rw [hg]
      have ax := congrArg V3.x ha; have ay := congrArg V3.y ha; have az := congrArg V3.z ha
      have bx := congrArg V3.x hc; have by' := congrArg V3.y hc; have bz := congrArg V3.z hc
      simp only [V3.cross, V3.add_x, V3.add_y, V3.add_z, V3.zero_x, V3.zero_y, V3.zero_z] at ax ay az bx by' bz
      ext <;> simp only [V3.cross, V3.sub_x, V3.sub_y, V3.sub_z, V3.zero_x, V3.zero_y, V3.zero_z] <;> linarith
    exact cross_two_zero heg k1 k2
  refine ⟨hw, ?_⟩
  rw [hw] at ha
  have : (0 : V3).cross (T.apply a) = 0 := by ext <;> simp [V3.cross]
  rw [this, V3.zero_add] at ha
  exact ha

/-- A point that does not move in the image moves along its ray. -/
theorem pixel_still {i : Intr} (hx : i.fx ≠ 0) (hy : i.fy ≠ 0) {p v : V3} (hz : p.z ≠ 0) (h : pixelSpeed i p v = ⟨0, 0⟩) :
    v = V3.smul (v.z / p.z) p := by
  have h1 := congrArg V2.x h
  have h2 := congrArg V2.y h
  simp only [pixelSpeed] at h1 h2
  have k1 := (mul_eq_zero.1 h1).resolve_left hx
  have k2 := (mul_eq_zero.1 h2).resolve_left hy
  have hz2 : p.z ^ 2 ≠ 0 := pow_ne_zero 2 hz
  have m1 := (div_eq_zero_iff.1 k1).resolve_right hz2
  have m2 := (div_eq_zero_iff.1 k2).resolve_right hz2
  ext <;> simp only [V3.smul] <;> field_simp
  · linear_combination m1
  · linear_combination m2

/-- A rigid motion that moves four points of a plane, no three on one line, along rays of a camera outside the plane is none. -/
theorem field_zero2 {T : Iso} (hT : T.IsRigid) (hcam : T.inv.t.z ≠ 0) {w v a b c d : V3} (h : Quadrangle a b c d) {ka kb kc kd : ℝ}
    (ha : w.cross (T.apply a) + v = V3.smul ka (T.apply a)) (hb : w.cross (T.apply b) + v = V3.smul kb (T.apply b))
    (hc : w.cross (T.apply c) + v = V3.smul kc (T.apply c)) (hd : w.cross (T.apply d) + v = V3.smul kd (T.apply d)) : w = 0 ∧ v = 0 := by
  obtain ⟨w1, hw1⟩ : ∃ w1, w1 = T.R.mulVec ⟨1, 0, 0⟩ := ⟨_, rfl⟩
  obtain ⟨w2, hw2⟩ : ∃ w2, w2 = T.R.mulVec ⟨0, 1, 0⟩ := ⟨_, rfl⟩
  have happ : ∀ q : V3, q.z = 0 → T.apply q = T.t + V3.smul q.x w1 + V3.smul q.y w2 := by
    intro q hq
    rw [hw1, hw2]
    ext <;> simp [Iso.apply, M3.mulVec, V3.smul, hq] <;> ring
  have hmap : ∀ q : V3, q.z = 0 → w.cross (T.apply q) + v = (w.cross T.t + v) + V3.smul q.x (w.cross w1) + V3.smul q.y (w.cross w2) := by
    intro q hq
    rw [happ q hq]
    ext <;> simp only [V3.cross, V3.add_x, V3.add_y, V3.add_z, V3.smul] <;> ring
  have htr : w1.triple w2 T.t ≠ 0 := by
    have e : T.t = T.R.mulVec (-T.inv.t) := by
      have := hT.apply_eq 0
      rw [show (0 : V3) - T.inv.t = -T.inv.t by ext <;> simp] at this
      rw [← this]
      ext <;> simp [Iso.apply, M3.mulVec]
    rw [e, hw1, hw2, M3.IsRot.triple hT]
    have : V3.triple ⟨1, 0, 0⟩ ⟨0, 1, 0⟩ (-T.inv.t) = -T.inv.t.z := by simp [V3.triple, V3.cross, V3.dot]
    rw [this]
    exact neg_ne_zero.2 hcam
  rw [hmap _ h.za, happ _ h.za] at ha
  rw [hmap _ h.zb, happ _ h.zb] at hb
  rw [hmap _ h.zc, happ _ h.zc] at hc
  rw [hmap _ h.zd, happ _ h.zd] at hd
  obtain ⟨e0, e1, e2⟩ := plane_maps htr h ha hb hc hd
  have n1 : w1.dot w1 = 1 := by rw [hw1, M3.IsRot.dot hT]; simp [V3.dot]
  have hk : kd = 0 := by
    have hx := congrArg V3.x e1; have hy := congrArg V3.y e1; have hz := congrArg V3.z e1
    simp only [V3.cross, V3.smul] at hx hy hz
    simp only [V3.dot] at n1
    linear_combination -w1.x * hx - w1.y * hy - w1.z * hz - kd * n1
  have z : ∀ x : V3, V3.smul 0 x = 0 := fun x => by ext <;> simp [V3.smul]
  rw [hk, z] at e0 e1 e2
  have hne : w1.cross w2 ≠ 0 := by
    rw [hw1, hw2, M3.IsRot.cross hT]
    intro h0
    have := M3.IsRot.dot hT (V3.cross ⟨1, 0, 0⟩ ⟨0, 1, 0⟩) (V3.cross ⟨1, 0, 0⟩ ⟨0, 1, 0⟩)
    rw [h0] at this
    simp [V3.dot, V3.cross] at this
  have hw := cross_two_zero hne e1 e2
  refine ⟨hw, ?_⟩
  rw [hw, show (0 : V3).cross T.t = 0 by ext <;> simp [V3.cross], V3.zero_add] at e0
  exact e0

/-! ## Two poses -/

/-- Angular velocity and velocity of the observed point of two moving poses. -/
noncomputable def chainTurn (dc dt : Nat → ℝ) (M : Iso) (cam tgt : Pose6) : V3 :=
  poseTurn cam.rot (dRot dc) + (poseCalToEigen cam).R.mulVec (M.R.mulVec (poseTurn tgt.rot (dRot dt)))

noncomputable def chainShift (dc dt : Nat → ℝ) (M : Iso) (cam tgt : Pose6) : V3 :=
  dTrans dc - (poseTurn cam.rot (dRot dc)).cross (poseCalToEigen cam).t +
    (poseCalToEigen cam).R.mulVec (M.R.mulVec (dTrans dt)) -
    ((poseCalToEigen cam).R.mulVec (M.R.mulVec (poseTurn tgt.rot (dRot dt)))).cross (chainPoint M 0 cam tgt)

theorem chainVel_field (dc dt : Nat → ℝ) {M : Iso} (hM : M.IsRigid) (q : V3) {cam : Pose6} (tgt : Pose6) (hc : Plain cam) :
    chainVel dc dt M q cam tgt = (chainTurn dc dt M cam tgt).cross (chainPoint M q cam tgt) + chainShift dc dt M cam tgt := by
  have rc : (poseCalToEigen cam).R.IsRot := (poseCalToEigen_rigid_iff cam).2 hc
  have rm : M.R.IsRot := hM
  unfold chainVel chainTurn chainShift chainPoint
  generalize poseTurn cam.rot (dRot dc) = wc
  generalize poseTurn tgt.rot (dRot dt) = wt
  rw [M3.mulVec_add M.R, M3.mulVec_add (poseCalToEigen cam).R, ← rm.cross, ← rc.cross]
  generalize poseCalToEigen cam = C
  generalize poseCalToEigen tgt = T
  have e1 : C.R.mulVec (M.apply (T.apply q)) = C.apply (M.apply (T.apply q)) - C.t := by ext <;> simp [Iso.apply]
  have e2 : C.R.mulVec (M.R.mulVec (T.R.mulVec q)) = C.apply (M.apply (T.apply q)) - C.apply (M.apply (T.apply 0)) := by
    simp only [Iso.apply, M3.mulVec_add, M3.mulVec_zero]
    ext <;> simp
  rw [e1, e2]
  generalize C.apply (M.apply (T.apply q)) = P
  generalize C.apply (M.apply (T.apply 0)) = P0
  generalize C.R.mulVec (M.R.mulVec wt) = W
  generalize C.R.mulVec (M.R.mulVec (dTrans dt)) = U
  ext <;> simp only [V3.cross, V3.add_x, V3.add_y, V3.add_z, V3.sub_x, V3.sub_y, V3.sub_z] <;> ring

/-- Poses whose motions cancel in several places of the robot do not move, if no direction is the same in all places in which the
camera is the same. -/
theorem chain_still {ι : Type} {P : ι → Prop} {same : ι → ι → Prop} {M : ι → Iso} (hM : ∀ i, P i → (M i).IsRigid)
    {cam : ι → Pose6} {tgt : Pose6} {dc : ι → Nat → ℝ} {dt : Nat → ℝ} (hc : ∀ i, Plain (cam i)) (htr : ¬ FullTurns tgt.rot)
    (hcr : ∀ i, ¬ FullTurns (cam i).rot) (hsame : ∀ i j, same i j → cam i = cam j ∧ dc i = dc j)
    (hno : ∀ b : V3, (∀ i, P i → ∀ j, P j → same i j → (M i).R.mulVec b = (M j).R.mulVec b) → b = 0)
    (h1 : ∀ i, P i → chainTurn (dc i) dt (M i) (cam i) tgt = 0) (h2 : ∀ i, P i → chainShift (dc i) dt (M i) (cam i) tgt = 0) :
    (∀ i, P i → dRot (dc i) = 0 ∧ dTrans (dc i) = 0) ∧ (dRot dt = 0 ∧ dTrans dt = 0) := by
  have inj : ∀ i (x y : V3), (poseCalToEigen (cam i)).R.mulVec x = (poseCalToEigen (cam i)).R.mulVec y → x = y := by
    intro i x y h
    have rc : (poseCalToEigen (cam i)).R.IsRot := (poseCalToEigen_rigid_iff (cam i)).2 (hc i)
    have := congrArg (fun v => (poseCalToEigen (cam i)).R.tr.mulVec v) h
    simpa only [← M3.mulVec_mul, rc.1, M3.one_mulVec] using this
  have z : ∀ R : M3, R.mulVec 0 = 0 := fun R => M3.mulVec_zero R
  have c0 : ∀ x : V3, (0 : V3).cross x = 0 := fun x => by ext <;> simp [V3.cross]
  have hwt : poseTurn tgt.rot (dRot dt) = 0 := by
    refine hno _ fun i hi j hj hij => inj j _ _ ?_
    obtain ⟨s1, s2⟩ := hsame i j hij
    have e1 := h1 i hi
    have e2 := h1 j hj
    rw [s1, s2] at e1
    unfold chainTurn at e1 e2
    have hx := congrArg V3.x e1; have hy := congrArg V3.y e1; have hz := congrArg V3.z e1
    have kx := congrArg V3.x e2; have ky := congrArg V3.y e2; have kz := congrArg V3.z e2
    simp only [V3.add_x, V3.add_y, V3.add_z, V3.zero_x, V3.zero_y, V3.zero_z] at hx hy hz kx ky kz
    ext <;> linarith
  have hwc : ∀ i, P i → poseTurn (cam i).rot (dRot (dc i)) = 0 := by
    intro i hi
    have e1 := h1 i hi
    unfold chainTurn at e1
    rwa [hwt, z, z, V3.add_zero] at e1
  have hs : ∀ i, P i → dTrans (dc i) + (poseCalToEigen (cam i)).R.mulVec ((M i).R.mulVec (dTrans dt)) = 0 := by
    intro i hi
    have e1 := h2 i hi
    unfold chainShift at e1
    rw [hwt, hwc i hi, z, z, c0, c0] at e1
    rw [← e1]
    ext <;> simp
  have hvt : dTrans dt = 0 := by
    refine hno _ fun i hi j hj hij => inj j _ _ ?_
    obtain ⟨s1, s2⟩ := hsame i j hij
    have e1 := hs i hi
    have e2 := hs j hj
    rw [s1, s2] at e1
    have hx := congrArg V3.x e1; have hy := congrArg V3.y e1; have hz := congrArg V3.z e1
    have kx := congrArg V3.x e2; have ky := congrArg V3.y e2; have kz := congrArg V3.z e2
    simp only [V3.add_x, V3.add_y, V3.add_z, V3.zero_x, V3.zero_y, V3.zero_z] at hx hy hz kx ky kz
    ext <;> linarith
  have hvc : ∀ i, P i → dTrans (dc i) = 0 := by
    intro i hi
    have e1 := hs i hi
    rwa [hvt, z, z, V3.add_zero] at e1
  exact ⟨fun i hi => ⟨turn_injective (hcr i) (hwc i hi), hvc i hi⟩, turn_injective htr hwt, hvt⟩

theorem six_zero {d : Nat → ℝ} (h : dRot d = 0 ∧ dTrans d = 0) {k : Nat} (hk : k < 6) : d k = 0 := by
  have a0 := congrArg V3.x h.1; have a1 := congrArg V3.y h.1; have a2 := congrArg V3.z h.1
  have a3 := congrArg V3.x h.2; have a4 := congrArg V3.y h.2; have a5 := congrArg V3.z h.2
  simp only [dRot, dTrans, V3.zero_x, V3.zero_y, V3.zero_z] at a0 a1 a2 a3 a4 a5
  interval_cases k <;> assumption

/-- If no residual changes, no observed point moves. -/
theorem DerivList.all_still {f : ℝ → List ℝ} {l : List ℝ} (h : DerivList f l)
    (hz : ∀ i v, HasDerivAt (fun u => (f u).getD i 0) v 0 → v = 0) : ∀ x ∈ l, x = 0 := by
  intro x hx
  obtain ⟨i, hi, rfl⟩ := List.mem_iff_getElem.1 hx
  have := hz i _ (h.speed i)
  rwa [List.getD_eq_getElem?_getD, List.getElem?_eq_getElem hi] at this

theorem PairBlocks3.all_still {α : Type} {l : List α} {g : α → ResBlock Pose6} {ci ti : α → Nat} {M : α → Iso} {q obs : α → V3}
    (h : PairBlocks3 l g ci ti M q obs) {st : Nat → Pose6} (hp : ∀ b ∈ usedBlocks (l.map g), Plain (st b)) {γ : ℝ → Nat → Pose6}
    {d : Nat → Nat → ℝ} (h0 : γ 0 = st) (hγ : Straight Pose6.mem γ d) (hz : ∀ i v, Speed (l.map g) γ i v → v = 0) {a : α} (ha : a ∈ l) :
    chainVel (d (ci a)) (d (ti a)) (M a) (q a) (st (ci a)) (st (ti a)) = 0 := by
  have := (h.deriv hp h0 hγ).all_still hz
  have hm : ∀ x, x ∈ [(chainVel (d (ci a)) (d (ti a)) (M a) (q a) (st (ci a)) (st (ti a))).x,
      (chainVel (d (ci a)) (d (ti a)) (M a) (q a) (st (ci a)) (st (ti a))).y,
      (chainVel (d (ci a)) (d (ti a)) (M a) (q a) (st (ci a)) (st (ti a))).z] → x = 0 := fun x hx =>
    this x (List.mem_flatMap.2 ⟨a, ha, hx⟩)
  exact V3.ext (hm _ (by simp)) (hm _ (by simp)) (hm _ (by simp))

theorem PairBlocks2.all_still {α : Type} {l : List α} {g : α → ResBlock Pose6} {ci ti : α → Nat} {M : α → Iso} {q : α → V3}
    {intr : α → Intr} {obs : α → V2} (h : PairBlocks2 l g ci ti M q intr obs) {st : Nat → Pose6}
    (hp : ∀ b ∈ usedBlocks (l.map g), Plain (st b))
    (hd : ∀ a ∈ l, (chainPoint (M a) (q a) (st (ci a)) (st (ti a))).z ≠ 0) {γ : ℝ → Nat → Pose6} {d : Nat → Nat → ℝ}
    (h0 : γ 0 = st) (hγ : Straight Pose6.mem γ d) (hz : ∀ i v, Speed (l.map g) γ i v → v = 0) {a : α} (ha : a ∈ l) :
    pixelSpeed (intr a) (chainPoint (M a) (q a) (st (ci a)) (st (ti a)))
      (chainVel (d (ci a)) (d (ti a)) (M a) (q a) (st (ci a)) (st (ti a))) = ⟨0, 0⟩ := by
  have := (h.deriv hp hd h0 hγ).all_still hz
  have hm : ∀ x, x ∈ [(pixelSpeed (intr a) (chainPoint (M a) (q a) (st (ci a)) (st (ti a)))
      (chainVel (d (ci a)) (d (ti a)) (M a) (q a) (st (ci a)) (st (ti a)))).x,
      (pixelSpeed (intr a) (chainPoint (M a) (q a) (st (ci a)) (st (ti a)))
      (chainVel (d (ci a)) (d (ti a)) (M a) (q a) (st (ci a)) (st (ti a)))).y] → x = 0 := fun x hx =>
    this x (List.mem_flatMap.2 ⟨a, ha, hx⟩)
  exact V2.ext (hm _ (by simp)) (hm _ (by simp))

end RCT
