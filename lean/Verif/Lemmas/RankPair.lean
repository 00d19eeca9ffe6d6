import Verif.Lemmas.Twist
import Verif.Lemmas.HandEye

/-!
# Singular Jacobians of residuals of two poses

Residual blocks of hand-eye calibration and calibration of several static cameras observe a point `C (M (Y q))`, where `C` and
`Y` are the poses of two parameter blocks.
-/

namespace RCT

open Spec Filter Topology

/-- A pose that is zero or beyond the threshold of the conversions. -/
def Plain (p : Pose6) : Prop := p.rot = 0 ∨ p.rot.normSq > dblEps

noncomputable def chainPoint (M : Iso) (q : V3) (cam tgt : Pose6) : V3 :=
  (poseCalToEigen cam).apply (M.apply ((poseCalToEigen tgt).apply q))

/-- Velocity of the point if both poses move straight. -/
noncomputable def chainVel (dc dt : Nat → ℝ) (M : Iso) (q : V3) (cam tgt : Pose6) : V3 :=
  (poseTurn cam.rot (dRot dc)).cross ((poseCalToEigen cam).R.mulVec (M.apply ((poseCalToEigen tgt).apply q))) +
    (poseCalToEigen cam).R.mulVec (M.R.mulVec ((poseTurn tgt.rot (dRot dt)).cross ((poseCalToEigen tgt).R.mulVec q) + dTrans dt)) +
    dTrans dc

theorem poseAlong_start (d : Nat → ℝ) (p : Pose6) : poseAlong d 0 p = p := by simp [poseAlong]

theorem chain_speed (dc dt : Nat → ℝ) (M : Iso) (q : V3) {cam tgt : Pose6} (hc : Plain cam) (ht : Plain tgt) :
    SpeedV3 (fun u => chainPoint M q (poseAlong dc u cam) (poseAlong dt u tgt)) (chainVel dc dt M q cam tgt) := by
  have h1 := pose_speed dt ht (SpeedV3.const q)
  have h2 := pose_speed dc hc (h1.apply M)
  have e0 : poseAlong dt 0 tgt = tgt := poseAlong_start dt tgt
  simp only [e0] at h2
  have e : (poseCalToEigen tgt).R.mulVec 0 = 0 := by ext <;> simp [M3.mulVec]
  rw [e, V3.add_zero] at h2
  exact h2

/-- Translation of the first pose along the first axis. -/
theorem chainVel_shift (M : Iso) (q : V3) (cam tgt : Pose6) :
    chainVel (fun k => if k = 3 then 1 else 0) (fun _ => 0) M q cam tgt = ⟨1, 0, 0⟩ := by
  have e1 : dRot (fun k => if k = 3 then (1 : ℝ) else 0) = 0 := by ext <;> simp [dRot]
  have e2 : dRot (fun _ => (0 : ℝ)) = 0 := rfl
  have e3 : dTrans (fun k => if k = 3 then (1 : ℝ) else 0) = ⟨1, 0, 0⟩ := by ext <;> simp [dTrans]
  have e4 : dTrans (fun _ => (0 : ℝ)) = 0 := rfl
  unfold chainVel
  rw [e1, e2, e3, e4, poseTurn_zero, poseTurn_zero]
  ext <;> simp [V3.cross, M3.mulVec]

/-- The blocks of a problem each observe a point in space. -/
structure PairBlocks3 {α : Type} (l : List α) (g : α → ResBlock Pose6) (ci ti : α → Nat) (M : α → Iso) (q obs : α → V3) : Prop where
  blocks : ∀ a ∈ l, (g a).blocks = [ci a, ti a]
  differ : ∀ a ∈ l, ci a ≠ ti a
  point : ∀ a ∈ l, ∀ st, (g a).residual st = [(chainPoint (M a) (q a) (st (ci a)) (st (ti a))).x - (obs a).x,
    (chainPoint (M a) (q a) (st (ci a)) (st (ti a))).y - (obs a).y, (chainPoint (M a) (q a) (st (ci a)) (st (ti a))).z - (obs a).z]

/-- The blocks of a problem each observe a pixel. -/
structure PairBlocks2 {α : Type} (l : List α) (g : α → ResBlock Pose6) (ci ti : α → Nat) (M : α → Iso) (q : α → V3)
    (intr : α → Intr) (obs : α → V2) : Prop where
  blocks : ∀ a ∈ l, (g a).blocks = [ci a, ti a]
  differ : ∀ a ∈ l, ci a ≠ ti a
  point : ∀ a ∈ l, ∀ st, (g a).residual st =
    [(projectPoint (intr a) (chainPoint (M a) (q a) (st (ci a)) (st (ti a)))).x - (obs a).x,
     (projectPoint (intr a) (chainPoint (M a) (q a) (st (ci a)) (st (ti a)))).y - (obs a).y]

theorem used_first {α : Type} {l : List α} {g : α → ResBlock Pose6} {a : α} {x : Nat} (ha : a ∈ l) (hx : x ∈ (g a).blocks) :
    x ∈ usedBlocks (l.map g) := mem_usedBlocks.2 ⟨g a, List.mem_map_of_mem ha, hx⟩

theorem PairBlocks3.plain {α : Type} {l : List α} {g : α → ResBlock Pose6} {ci ti : α → Nat} {M : α → Iso} {q obs : α → V3}
    (h : PairBlocks3 l g ci ti M q obs) {st : Nat → Pose6} (hp : ∀ b ∈ usedBlocks (l.map g), Plain (st b)) {a : α} (ha : a ∈ l) :
    Plain (st (ci a)) ∧ Plain (st (ti a)) :=
  ⟨hp _ (used_first ha (by rw [h.blocks a ha]; simp)), hp _ (used_first ha (by rw [h.blocks a ha]; simp))⟩

theorem PairBlocks2.plain {α : Type} {l : List α} {g : α → ResBlock Pose6} {ci ti : α → Nat} {M : α → Iso} {q : α → V3}
    {intr : α → Intr} {obs : α → V2} (h : PairBlocks2 l g ci ti M q intr obs) {st : Nat → Pose6}
    (hp : ∀ b ∈ usedBlocks (l.map g), Plain (st b)) {a : α} (ha : a ∈ l) :
    Plain (st (ci a)) ∧ Plain (st (ti a)) :=
  ⟨hp _ (used_first ha (by rw [h.blocks a ha]; simp)), hp _ (used_first ha (by rw [h.blocks a ha]; simp))⟩

/-- Derivative of all residuals of a problem with points. -/
theorem PairBlocks3.deriv {α : Type} {l : List α} {g : α → ResBlock Pose6} {ci ti : α → Nat} {M : α → Iso} {q obs : α → V3}
    (h : PairBlocks3 l g ci ti M q obs) {st : Nat → Pose6} (hp : ∀ b ∈ usedBlocks (l.map g), Plain (st b)) {γ : ℝ → Nat → Pose6}
    {d : Nat → Nat → ℝ} (h0 : γ 0 = st) (hγ : Straight Pose6.mem γ d) :
    DerivList (fun u => residuals (l.map g) (γ u)) (l.flatMap fun a =>
      [(chainVel (d (ci a)) (d (ti a)) (M a) (q a) (st (ci a)) (st (ti a))).x,
       (chainVel (d (ci a)) (d (ti a)) (M a) (q a) (st (ci a)) (st (ti a))).y,
       (chainVel (d (ci a)) (d (ti a)) (M a) (q a) (st (ci a)) (st (ti a))).z]) := by
  simp only [residuals_map]
  refine DerivList.flatMap fun a ha => ?_
  have hs := chain_speed (d (ci a)) (d (ti a)) (M a) (q a) (h.plain hp ha).1 (h.plain hp ha).2
  have e : (fun u => (g a).residual (γ u)) = fun u =>
      [(chainPoint (M a) (q a) (poseAlong (d (ci a)) u (st (ci a))) (poseAlong (d (ti a)) u (st (ti a)))).x - (obs a).x,
       (chainPoint (M a) (q a) (poseAlong (d (ci a)) u (st (ci a))) (poseAlong (d (ti a)) u (st (ti a)))).y - (obs a).y,
       (chainPoint (M a) (q a) (poseAlong (d (ci a)) u (st (ci a))) (poseAlong (d (ti a)) u (st (ti a)))).z - (obs a).z] :=
    funext fun u => by rw [h.point a ha, hγ.pose u (ci a), hγ.pose u (ti a), h0]
  rw [e]
  exact DerivList.point3 (obs a) hs

/-- Derivative of all residuals of a problem with pixels. -/
theorem PairBlocks2.deriv {α : Type} {l : List α} {g : α → ResBlock Pose6} {ci ti : α → Nat} {M : α → Iso} {q : α → V3}
    {intr : α → Intr} {obs : α → V2} (h : PairBlocks2 l g ci ti M q intr obs) {st : Nat → Pose6}
    (hp : ∀ b ∈ usedBlocks (l.map g), Plain (st b))
    (hz : ∀ a ∈ l, (chainPoint (M a) (q a) (st (ci a)) (st (ti a))).z ≠ 0) {γ : ℝ → Nat → Pose6} {d : Nat → Nat → ℝ}
    (h0 : γ 0 = st) (hγ : Straight Pose6.mem γ d) :
    DerivList (fun u => residuals (l.map g) (γ u)) (l.flatMap fun a =>
      [(pixelSpeed (intr a) (chainPoint (M a) (q a) (st (ci a)) (st (ti a)))
          (chainVel (d (ci a)) (d (ti a)) (M a) (q a) (st (ci a)) (st (ti a)))).x,
       (pixelSpeed (intr a) (chainPoint (M a) (q a) (st (ci a)) (st (ti a)))
          (chainVel (d (ci a)) (d (ti a)) (M a) (q a) (st (ci a)) (st (ti a)))).y]) := by
  simp only [residuals_map]
  refine DerivList.flatMap fun a ha => ?_
  have hs := chain_speed (d (ci a)) (d (ti a)) (M a) (q a) (h.plain hp ha).1 (h.plain hp ha).2
  have e : (fun u => (g a).residual (γ u)) = fun u =>
      [(projectPoint (intr a) (chainPoint (M a) (q a) (poseAlong (d (ci a)) u (st (ci a))) (poseAlong (d (ti a)) u (st (ti a))))).x - (obs a).x,
       (projectPoint (intr a) (chainPoint (M a) (q a) (poseAlong (d (ci a)) u (st (ci a))) (poseAlong (d (ti a)) u (st (ti a))))).y - (obs a).y] :=
    funext fun u => by rw [h.point a ha, hγ.pose u (ci a), hγ.pose u (ti a), h0]
  rw [e]
  have := DerivList.pixel (intr a) (obs a) hs (by rw [poseAlong_start, poseAlong_start]; exact hz a ha)
  simp only [poseAlong_start] at this
  exact this

theorem sum_const_six (l : List Nat) : (l.map fun _ => 6).sum = 6 * l.length := by
  induction l with
  | nil => rfl
  | cons a l ih => simp only [List.map_cons, List.sum_cons, List.length_cons, ih]; ring

/-- A state of a problem with points is singular if the poses can move without moving a point. -/
theorem PairBlocks3.singular {α : Type} {l : List α} {g : α → ResBlock Pose6} {ci ti : α → Nat} {M : α → Iso} {q obs : α → V3}
    (h : PairBlocks3 l g ci ti M q obs) {st : Nat → Pose6} (hp : ∀ b ∈ usedBlocks (l.map g), Plain (st b)) (hl : l ≠ [])
    (hlen : 6 * (usedBlocks (l.map g)).length ≤ 3 * l.length) {d : Nat → Nat → ℝ}
    (hd : ∃ b ∈ usedBlocks (l.map g), ∃ k < 6, d b k ≠ 0)
    (hv : ∀ a ∈ l, chainVel (d (ci a)) (d (ti a)) (M a) (q a) (st (ci a)) (st (ti a)) = 0) :
    Singular Pose6.mem (fun _ => 6) (l.map g) st where
  enough := by
    rw [sum_const_six, residuals_map, List.length_flatMap]
    have : (l.map fun a => ((g a).residual st).length).sum = 3 * l.length := by
      rw [List.map_congr_left (g := fun _ => 3) fun a ha => by rw [h.point a ha]; rfl]
      simp [mul_comm]
    rw [this]; exact hlen
  smooth := fun γ d h0 hγ i => ⟨_, (h.deriv hp h0 hγ).speed i⟩
  moves := by
    obtain ⟨a, l', rfl⟩ := List.exists_cons_of_ne_nil hl
    refine ⟨posesAlong (fun b k => if b = ci a then (if k = 3 then 1 else 0) else 0) st, _, posesAlong_zero _ _,
      posesAlong_straight _ _, 0, 1, one_ne_zero, ?_⟩
    have hs := (h.deriv hp (posesAlong_zero _ _) (posesAlong_straight
      (fun b k => if b = ci a then (if k = 3 then (1 : ℝ) else 0) else 0) st)).speed 0
    have hne := h.differ a (by simp)
    have e : chainVel (fun k => if k < 6 then (if ci a = ci a then (if k = 3 then (1 : ℝ) else 0) else 0) else 0)
        (fun k => if k < 6 then (if ti a = ci a then (if k = 3 then (1 : ℝ) else 0) else 0) else 0) (M a) (q a) (st (ci a)) (st (ti a)) =
        ⟨1, 0, 0⟩ := by
      rw [← chainVel_shift (M a) (q a) (st (ci a)) (st (ti a))]
      congr 1
      · funext k
        by_cases hk : k = 3
        · subst hk; simp
        · simp [hk]
      · funext k
        simp [hne.symm]
    rw [List.flatMap_cons, e] at hs
    exact hs
  still := by
    obtain ⟨b, hb, k, hk, hne⟩ := hd
    refine ⟨posesAlong d st, _, posesAlong_zero _ _, posesAlong_straight _ _, ⟨b, hb, k, hk, by simpa [hk] using hne⟩, fun i => ?_⟩
    have hs := (h.deriv hp (posesAlong_zero _ _) (posesAlong_straight d st)).speed i
    have e : (l.flatMap fun a =>
        [(chainVel (fun k => if k < 6 then d (ci a) k else 0) (fun k => if k < 6 then d (ti a) k else 0) (M a) (q a) (st (ci a)) (st (ti a))).x,
         (chainVel (fun k => if k < 6 then d (ci a) k else 0) (fun k => if k < 6 then d (ti a) k else 0) (M a) (q a) (st (ci a)) (st (ti a))).y,
         (chainVel (fun k => if k < 6 then d (ci a) k else 0) (fun k => if k < 6 then d (ti a) k else 0) (M a) (q a) (st (ci a)) (st (ti a))).z]) =
        l.flatMap fun _ => [0, 0, 0] := by
      refine flatMap_congr' fun a ha => ?_
      have : chainVel (fun k => if k < 6 then d (ci a) k else 0) (fun k => if k < 6 then d (ti a) k else 0) (M a) (q a) (st (ci a)) (st (ti a)) = 0 :=
        hv a ha
      rw [this]; rfl
    rw [e] at hs
    have hz : (l.flatMap fun _ => [(0 : ℝ), 0, 0]).getD i 0 = 0 := by
      rw [List.getD_eq_getElem?_getD]
      cases hx : (l.flatMap fun _ => [(0 : ℝ), 0, 0])[i]? with
      | none => rfl
      | some x =>
        have := List.mem_of_getElem? hx
        simp only [List.mem_flatMap, List.mem_cons, List.not_mem_nil, or_false, or_self] at this
        obtain ⟨_, _, h⟩ := this
        rw [h]; rfl
    rw [hz] at hs
    exact hs

/-- A state of a problem with pixels is singular if the poses can move without moving a point. -/
theorem PairBlocks2.singular {α : Type} {l : List α} {g : α → ResBlock Pose6} {ci ti : α → Nat} {M : α → Iso} {q : α → V3}
    {intr : α → Intr} {obs : α → V2} (h : PairBlocks2 l g ci ti M q intr obs) {st : Nat → Pose6}
    (hp : ∀ b ∈ usedBlocks (l.map g), Plain (st b))
    (hz : ∀ a ∈ l, (chainPoint (M a) (q a) (st (ci a)) (st (ti a))).z ≠ 0) (hl : l ≠ [])
    (hf : ∀ a ∈ l, (intr a).fx ≠ 0)
    (hlen : 6 * (usedBlocks (l.map g)).length ≤ 2 * l.length) {d : Nat → Nat → ℝ}
    (hd : ∃ b ∈ usedBlocks (l.map g), ∃ k < 6, d b k ≠ 0)
    (hv : ∀ a ∈ l, pixelSpeed (intr a) (chainPoint (M a) (q a) (st (ci a)) (st (ti a)))
      (chainVel (d (ci a)) (d (ti a)) (M a) (q a) (st (ci a)) (st (ti a))) = ⟨0, 0⟩) :
    Singular Pose6.mem (fun _ => 6) (l.map g) st where
  enough := by
    rw [sum_const_six, residuals_map, List.length_flatMap]
    have : (l.map fun a => ((g a).residual st).length).sum = 2 * l.length := by
      rw [List.map_congr_left (g := fun _ => 2) fun a ha => by rw [h.point a ha]; rfl]
      simp [mul_comm]
    rw [this]; exact hlen
  smooth := fun γ d h0 hγ i => ⟨_, (h.deriv hp hz h0 hγ).speed i⟩
  moves := by
    obtain ⟨a, l', rfl⟩ := List.exists_cons_of_ne_nil hl
    have hza := hz a (by simp)
    refine ⟨posesAlong (fun b k => if b = ci a then (if k = 3 then 1 else 0) else 0) st, _, posesAlong_zero _ _,
      posesAlong_straight _ _, 0, (pixelSpeed (intr a) (chainPoint (M a) (q a) (st (ci a)) (st (ti a))) ⟨1, 0, 0⟩).x, ?_, ?_⟩
    · simp only [pixelSpeed, mul_zero, sub_zero, one_mul]
      have := hf a (by simp)
      positivity
    have hs := (h.deriv hp hz (posesAlong_zero _ _) (posesAlong_straight
      (fun b k => if b = ci a then (if k = 3 then (1 : ℝ) else 0) else 0) st)).speed 0
    have hne := h.differ a (by simp)
    have e : chainVel (fun k => if k < 6 then (if ci a = ci a then (if k = 3 then (1 : ℝ) else 0) else 0) else 0)
        (fun k => if k < 6 then (if ti a = ci a then (if k = 3 then (1 : ℝ) else 0) else 0) else 0) (M a) (q a) (st (ci a)) (st (ti a)) =
        ⟨1, 0, 0⟩ := by
      rw [← chainVel_shift (M a) (q a) (st (ci a)) (st (ti a))]
      congr 1
      · funext k
        by_cases hk : k = 3
        · subst hk; simp
        · simp [hk]
      · funext k
        simp [hne.symm]
    rw [List.flatMap_cons, e] at hs
    exact hs
  still := by
    obtain ⟨b, hb, k, hk, hne⟩ := hd
    refine ⟨posesAlong d st, _, posesAlong_zero _ _, posesAlong_straight _ _, ⟨b, hb, k, hk, by simpa [hk] using hne⟩, fun i => ?_⟩
    have hs := (h.deriv hp hz (posesAlong_zero _ _) (posesAlong_straight d st)).speed i
    have e : (l.flatMap fun a =>
        [(pixelSpeed (intr a) (chainPoint (M a) (q a) (st (ci a)) (st (ti a)))
          (chainVel (fun k => if k < 6 then d (ci a) k else 0) (fun k => if k < 6 then d (ti a) k else 0) (M a) (q a) (st (ci a)) (st (ti a)))).x,
         (pixelSpeed (intr a) (chainPoint (M a) (q a) (st (ci a)) (st (ti a)))
          (chainVel (fun k => if k < 6 then d (ci a) k else 0) (fun k => if k < 6 then d (ti a) k else 0) (M a) (q a) (st (ci a)) (st (ti a)))).y]) =
        l.flatMap fun _ => [0, 0] := by
      refine flatMap_congr' fun a ha => ?_
      have : pixelSpeed (intr a) (chainPoint (M a) (q a) (st (ci a)) (st (ti a)))
          (chainVel (fun k => if k < 6 then d (ci a) k else 0) (fun k => if k < 6 then d (ti a) k else 0) (M a) (q a) (st (ci a)) (st (ti a))) = ⟨0, 0⟩ :=
        hv a ha
      rw [this]
    rw [e] at hs
    have hz : (l.flatMap fun _ => [(0 : ℝ), 0]).getD i 0 = 0 := by
      rw [List.getD_eq_getElem?_getD]
      cases hx : (l.flatMap fun _ => [(0 : ℝ), 0])[i]? with
      | none => rfl
      | some x =>
        have := List.mem_of_getElem? hx
        simp only [List.mem_flatMap, List.mem_cons, List.not_mem_nil, or_false, or_self] at this
        obtain ⟨_, _, h⟩ := this
        rw [h]; rfl
    rw [hz] at hs
    exact hs

/-- The covariance computation throws if the solver reports a singular Jacobian. -/
theorem computeCovariance_throws {cs : CovSolver} {blocks : List Nat} {names : SMap Nat (List String)}
    {masks : SMap Nat (List Int)} (h1 : names.size = blocks.length)
    (h2 : ∀ b ∈ blocks, ∃ l, names.find b = some l ∧ cs.blockSize b = some l.length)
    (h3 : cs.compute blocks = .ok false) : computeCovariance cs blocks names masks = .throw .covariance := by
  unfold computeCovariance
  rw [if_neg (by simp [h1])]
  rcases tangentBlocks_outcome cs names masks blocks ⟨0, [], []⟩
    (fun b hb => by obtain ⟨l, -, hl⟩ := h2 b hb; simp [hl]) with ⟨s, hs⟩ | ⟨⟨b, hb, hbad⟩, -⟩
  · rw [hs, Res.ok_bind, h3, Res.ok_bind, if_pos rfl]
  · obtain ⟨l, e1, e2⟩ := h2 b hb
    exact absurd e2 (hbad l e1)

end RCT
