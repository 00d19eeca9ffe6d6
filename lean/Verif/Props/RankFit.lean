import Verif.Lemmas.RankPair
import Verif.Lemmas.RankWitness
import Verif.Props.Identify

/-!
# C196 – C198 Data that do not determine a pose, intrinsics or a circle are reported as an error
-/

namespace RCT

open Spec Filter Topology

/-! ## C196 PnP -/

/-- Pixel velocity of a moving point in the projection of PnP, which does not divide by depths up to `1e-10`. -/
noncomputable def pixelSpeedE (i : Intr) (p v : V3) : V2 :=
  if p.z > 1 / 10 ^ 10 then pixelSpeed i p v else ⟨i.fx * v.x, i.fy * v.y⟩

theorem pixelSpeedE_zero (i : Intr) (p : V3) : pixelSpeedE i p 0 = ⟨0, 0⟩ := by
  unfold pixelSpeedE
  split
  · exact pixelSpeed_zero i p
  · simp

theorem pixelSpeedE_shift {i : Intr} (hi : i.fx ≠ 0) (p : V3) : (pixelSpeedE i p ⟨1, 0, 0⟩).x ≠ 0 := by
  unfold pixelSpeedE
  split
  · rename_i h
    have : p.z ≠ 0 := (lt_trans (by positivity) h).ne'
    simp only [pixelSpeed, mul_zero, sub_zero, one_mul]
    positivity
  · simpa using hi

theorem DerivList.pixelE (i : Intr) (obs : V2) {f : ℝ → V3} {v : V3} (h : SpeedV3 f v) (hz : (f 0).z ≠ 1 / 10 ^ 10) :
    DerivList (fun u => [(projectPointE i (f u)).x - obs.x, (projectPointE i (f u)).y - obs.y])
      [(pixelSpeedE i (f 0) v).x, (pixelSpeedE i (f 0) v).y] := by
  unfold pixelSpeedE
  rcases lt_or_gt_of_ne hz with hz | hz
  · have hev : ∀ᶠ u in 𝓝 (0 : ℝ), (f u).z < 1 / 10 ^ 10 := h.z.continuousAt.eventually_lt continuousAt_const hz
    rw [if_neg (not_lt.2 hz.le)]
    refine ⟨[fun u => (projectPointE i (f u)).x - obs.x, fun u => (projectPointE i (f u)).y - obs.y], fun _ => rfl,
      .cons ?_ (.cons ?_ .nil)⟩
    · refine (((h.x.const_mul i.fx).add_const i.cx).sub_const obs.x).congr_of_eventuallyEq (hev.mono fun u hu => ?_)
      simp only [projectPointE, sub_zero, if_neg (not_lt.2 hu.le), M3.mulVec]
      ring
    · refine (((h.y.const_mul i.fy).add_const i.cy).sub_const obs.y).congr_of_eventuallyEq (hev.mono fun u hu => ?_)
      simp only [projectPointE, sub_zero, if_neg (not_lt.2 hu.le), M3.mulVec]
      ring
  · have hev : ∀ᶠ u in 𝓝 (0 : ℝ), 1 / 10 ^ 10 < (f u).z := continuousAt_const.eventually_lt h.z.continuousAt hz
    have h0 : (f 0).z ≠ 0 := (lt_trans (by positivity) hz).ne'
    rw [if_pos hz]
    refine ⟨[fun u => (projectPointE i (f u)).x - obs.x, fun u => (projectPointE i (f u)).y - obs.y], fun _ => rfl,
      .cons ?_ (.cons ?_ .nil)⟩
    · refine (((((h.x.fun_div h.z h0).const_mul i.fx).add_const i.cx).sub_const obs.x)).congr_of_eventuallyEq (hev.mono fun u hu => ?_)
      simp only [projectPointE, sub_zero, gt_iff_lt, if_pos hu, M3.mulVec]
      ring
    · refine (((((h.y.fun_div h.z h0).const_mul i.fy).add_const i.cy).sub_const obs.y)).congr_of_eventuallyEq (hev.mono fun u hu => ?_)
      simp only [projectPointE, sub_zero, gt_iff_lt, if_pos hu, M3.mulVec]
      ring

/-- Velocity of a point if rotation vector and translation move straight. -/
noncomputable def pnpVel (dr dt q r : V3) : V3 := (turnSpeed r dr).cross ((AngleAxis.toMat ⟨r.norm, r.normalized⟩).mulVec q) + dt

theorem pnp_speed (dr dt q : V3) {r : V3} (hr : r ≠ 0) (t : V3) :
    SpeedV3 (fun u => (pnpTransform (r + V3.smul u dr) (t + V3.smul u dt)).apply q) (pnpVel dr dt q r) := by
  have h := (rodrigues_speed dr hr (SpeedV3.const q)).add (SpeedV3.line t dt)
  rw [M3.mulVec_zero, V3.add_zero] at h
  exact h

theorem Spec.Straight.vec {γ : ℝ → Nat → V3} {d : Nat → Nat → ℝ} (h : Straight vecElem γ d) (u : ℝ) (b : Nat) :
    γ u b = γ 0 b + V3.smul u ⟨d b 0, d b 1, d b 2⟩ := by
  have h0 := h u b 0
  have h1 := h u b 1
  have h2 := h u b 2
  simp only [vecElem] at h0 h1 h2
  exact V3.ext h0 h1 h2

/-- Move all blocks of three values straight. -/
def vecsAlong (d : Nat → V3) (st : Nat → V3) (u : ℝ) : Nat → V3 := fun b => st b + V3.smul u (d b)

theorem vecsAlong_zero (d : Nat → V3) (st : Nat → V3) : vecsAlong d st 0 = st := by
  funext b; ext <;> simp [vecsAlong, V3.smul]

theorem vecsAlong_straight (d : Nat → V3) (st : Nat → V3) : Straight vecElem (vecsAlong d st) fun b k => vecElem (d b) k := by
  intro u b k
  rw [vecsAlong_zero]
  match k with
  | 0 | 1 | 2 => simp [vecsAlong, vecElem, V3.smul]
  | k + 3 => simp [vecElem]

theorem sum_const_three (l : List Nat) : (l.map fun _ => 3).sum = 3 * l.length := by
  induction l with
  | nil => rfl
  | cons a l ih => simp only [List.map_cons, List.sum_cons, List.length_cons, ih]; ring

/-- A direction in which the pose moves without moving points of a line. -/
theorem pnp_line_still (r t q₀ b : V3) (hr : r ≠ 0) :
    ∃ dr dt : V3, (dr ≠ 0 ∨ dt ≠ 0) ∧ ∀ x : ℝ, pnpVel dr dt (q₀ + V3.smul x b) r = 0 := by
  have hrot : (AngleAxis.toMat ⟨r.norm, r.normalized⟩).IsRot := AngleAxis.toMat_isRot (V3.normSq_normalized hr)
  generalize hR : AngleAxis.toMat ⟨r.norm, r.normalized⟩ = R at hrot
  obtain ⟨b', hb', hx⟩ : ∃ b' : V3, b' ≠ 0 ∧ ∃ y : ℝ, b = V3.smul y b' := by
    by_cases hb : b = 0
    · exact ⟨⟨1, 0, 0⟩, fun h => by simpa using congrArg V3.x h, 0, by rw [hb]; ext <;> simp [V3.smul]⟩
    · exact ⟨b, hb, 1, by ext <;> simp [V3.smul]⟩
  obtain ⟨y, rfl⟩ := hx
  obtain ⟨w, hw⟩ : ∃ w, w = R.mulVec b' := ⟨_, rfl⟩
  have hw0 : w ≠ 0 := by
    rw [hw]
    intro h
    apply hb'
    have := congrArg (fun v => R.tr.mulVec v) h
    rw [← M3.mulVec_mul, hrot.1, M3.one_mulVec, M3.mulVec_zero] at this
    exact this
  obtain ⟨dr, c, h1, h2⟩ := turn_exists r w
  rw [poseTurn, if_neg hr] at h1
  refine ⟨dr, -(V3.smul c (w.cross (R.mulVec q₀))), Or.inl ?_, fun x => ?_⟩
  · by_cases hc : c = 0
    · exact h2 hc
    · rintro rfl
      have := poseTurn_zero r
      rw [poseTurn, if_neg hr, h1] at this
      apply hw0
      have hx := congrArg V3.x this; have hy := congrArg V3.y this; have hz := congrArg V3.z this
      simp [V3.smul, hc] at hx hy hz
      exact V3.ext hx hy hz
  · unfold pnpVel
    rw [h1, hR, M3.mulVec_add, M3.mulVec_smul, M3.mulVec_smul, ← hw]
    generalize R.mulVec q₀ = z
    ext <;> simp only [V3.smul, V3.cross, V3.add_x, V3.add_y, V3.add_z, V3.neg_x, V3.neg_y, V3.neg_z, V3.zero_x, V3.zero_y, V3.zero_z] <;> ring

theorem pnp_used {α : Type} {l : List α} (hl : l ≠ []) {g : α → ResBlock V3} (hg : ∀ a ∈ l, (g a).blocks = [pnpRot, pnpTrans]) :
    [pnpTrans, pnpRot].Perm (usedBlocks (l.map g)) :=
  (List.Perm.swap pnpRot pnpTrans []).trans (usedBlocks_const l hl g [pnpRot, pnpTrans] (by decide) hg).symm

theorem turned_ne_zero {aa t : V3} (h : (pnpTransform aa t).R ≠ 1) : aa ≠ 0 := by
  rintro rfl
  apply h
  show AngleAxis.toMat ⟨(0 : V3).norm, (0 : V3).normalized⟩ = 1
  have h0 : (0 : V3).norm = 0 := V3.norm_eq_zero.2 rfl
  rw [h0]
  ext <;> simp [AngleAxis.toMat, M3.one_def]

theorem getD_zero {l : List ℝ} (h : ∀ e ∈ l, e = 0) (i : Nat) : l.getD i 0 = 0 := by
  rw [List.getD_eq_getElem?_getD]
  cases hx : l[i]? with
  | none => rfl
  | some x => rw [h x (List.mem_of_getElem? hx)]; rfl

theorem vec_elem_ne {v : V3} (hv : v ≠ 0) : ∃ k < 3, vecElem v k ≠ 0 := by
  by_contra hall
  push Not at hall
  exact hv (V3.ext (hall 0 (by norm_num)) (hall 1 (by norm_num)) (hall 2 (by norm_num)))

/-- PnP returns no result if the pose can move without changing a residual to first order. -/
theorem pnp_rejected {κ : Type} {s : Ceres V3} (hr : RejectsSingular s vecElem (fun _ => 3) fun st => st pnpRot ≠ 0)
    {p : PnPProblem κ} {l : List κ} (hl : l ≠ []) {g : κ → ResBlock V3} (hg : ∀ c ∈ l, (g c).blocks = [pnpRot, pnpTrans])
    {m : Nat} (hm : ∀ c ∈ l, ∀ st, ((g c).residual st).length = m) (hn : 6 ≤ m * l.length) {st : Nat → V3}
    (hst : st = s.solve (l.map g) (pnpInit p.guess)) (hrot : st pnpRot ≠ 0) {vel : κ → V3 → V3 → List ℝ}
    (hder : ∀ c ∈ l, ∀ (γ : ℝ → Nat → V3) (dr dt : V3), (∀ u, γ u pnpRot = st pnpRot + V3.smul u dr) →
      (∀ u, γ u pnpTrans = st pnpTrans + V3.smul u dt) → DerivList (fun u => (g c).residual (γ u)) (vel c dr dt))
    (hmove : ∀ c ∈ l, ∃ e r, vel c 0 ⟨1, 0, 0⟩ = e :: r ∧ e ≠ 0) {dr dt : V3} (hd : dr ≠ 0 ∨ dt ≠ 0)
    (hv : ∀ c ∈ l, ∀ e ∈ vel c dr dt, e = 0) {res : PnPResult} : pnpFinish s p (l.map g) ≠ .ok res := by
  intro h
  obtain ⟨h1, -, -⟩ := pnpFinish_ok h
  have hperm := pnp_used hl hg
  have hlen := hperm.length_eq
  rw [← hst] at h1
  have hder' : ∀ (γ : ℝ → Nat → V3) (d : Nat → Nat → ℝ), γ 0 = st → Straight vecElem γ d →
      DerivList (fun u => residuals (l.map g) (γ u)) (l.flatMap fun c =>
        vel c ⟨d pnpRot 0, d pnpRot 1, d pnpRot 2⟩ ⟨d pnpTrans 0, d pnpTrans 1, d pnpTrans 2⟩) := by
    intro γ d h0 hγ
    simp only [residuals_map]
    exact DerivList.flatMap fun c hc => hder c hc γ _ _ (fun u => by rw [hγ.vec u pnpRot, h0]) fun u => by rw [hγ.vec u pnpTrans, h0]
  refine computeCovariance_rejected (hr _ _ _ hperm hrot ⟨?_, fun γ d h0 hγ i => ⟨_, (hder' γ d h0 hγ).speed i⟩, ?_, ?_⟩) _ h1
  · rw [sum_const_three, ← hlen, residuals_map, List.length_flatMap]
    have : (l.map fun a => ((g a).residual st).length).sum = m * l.length := by
      rw [List.map_congr_left (g := fun _ => m) fun a ha => hm a ha st]
      simp [mul_comm]
    rw [this]
    exact hn
  · obtain ⟨c, l', rfl⟩ := List.exists_cons_of_ne_nil hl
    obtain ⟨e, r, he, hne⟩ := hmove c (by simp)
    refine ⟨vecsAlong (fun b => if b = pnpTrans then ⟨1, 0, 0⟩ else 0) st, _, vecsAlong_zero _ _, vecsAlong_straight _ _, 0, e, hne, ?_⟩
    have hs : HasDerivAt (fun u => (residuals ((c :: l').map g)
        (vecsAlong (fun b => if b = pnpTrans then ⟨1, 0, 0⟩ else 0) st u)).getD 0 0)
        (((c :: l').flatMap fun c => vel c 0 ⟨1, 0, 0⟩).getD 0 0) 0 :=
      (hder' _ _ (vecsAlong_zero (fun b => if b = pnpTrans then ⟨1, 0, 0⟩ else 0) st) (vecsAlong_straight _ _)).speed 0
    rw [List.flatMap_cons, he] at hs
    exact hs
  · refine ⟨vecsAlong (fun b => if b = pnpTrans then dt else dr) st, _, vecsAlong_zero _ _, vecsAlong_straight _ _, ?_, fun i => ?_⟩
    · rcases hd with hd | hd
      · exact ⟨pnpRot, hperm.subset (by simp), vec_elem_ne hd⟩
      · exact ⟨pnpTrans, hperm.subset (by simp), vec_elem_ne hd⟩
    · have hs : HasDerivAt (fun u => (residuals (l.map g) (vecsAlong (fun b => if b = pnpTrans then dt else dr) st u)).getD i 0)
        ((l.flatMap fun c => vel c dr dt).getD i 0) 0 :=
        (hder' _ _ (vecsAlong_zero (fun b => if b = pnpTrans then dt else dr) st) (vecsAlong_straight _ _)).speed i
      rw [getD_zero (fun e he => by obtain ⟨c, hc, he⟩ := List.mem_flatMap.1 he; exact hv c hc e he)] at hs
      exact hs

theorem pnpVel_shift {r : V3} (hr : r ≠ 0) (q : V3) : pnpVel 0 ⟨1, 0, 0⟩ q r = ⟨1, 0, 0⟩ := by
  unfold pnpVel
  have := poseTurn_zero r
  rw [poseTurn, if_neg hr] at this
  rw [this]
  ext <;> simp [V3.cross]

/-- PnP from points: if all measured points are on one line of the target there is no result with a turned target. -/
theorem C196_3d (s : Ceres V3) (hr : RejectsSingular s vecElem (fun _ => 3) fun st => st pnpRot ≠ 0) (p : PnPProblem Corr3)
    (hn : 2 ≤ p.correspondences.length) (q₀ b : V3) (hline : ∀ k ∈ p.correspondences, ∃ x : ℝ, k.inTarget = q₀ + V3.smul x b)
    (res : PnPResult) (h : pnp3 s p = .ok res) : res.cameraToTarget.R = 1 := by
  by_contra hR
  have hne : p.correspondences ≠ [] := by intro h; rw [h] at hn; simp at hn
  obtain ⟨-, h2, -⟩ := pnpFinish_ok h
  have hrot := turned_ne_zero (by rw [← h2]; exact hR)
  obtain ⟨dr, dt, hd, hv⟩ := pnp_line_still _ (s.solve (pnpBuild3 p) (pnpInit p.guess) pnpTrans) q₀ b hrot
  refine pnp_rejected hr hne (g := fun c : Corr3 => ⟨[pnpRot, pnpTrans], evalV2 (pnpCost3 c.inTarget c.inImage)⟩) (fun _ _ => rfl)
    (m := 3) (fun _ _ _ => rfl) (by omega) rfl hrot
    (vel := fun c dr dt => [(pnpVel dr dt c.inTarget (s.solve (pnpBuild3 p) (pnpInit p.guess) pnpRot)).x,
      (pnpVel dr dt c.inTarget (s.solve (pnpBuild3 p) (pnpInit p.guess) pnpRot)).y,
      (pnpVel dr dt c.inTarget (s.solve (pnpBuild3 p) (pnpInit p.guess) pnpRot)).z])
    (fun c hc γ dr dt h1 h2 => ?_) (fun c _ => ?_) hd (fun c hc e he => ?_) h
  · have e : (fun u => (⟨[pnpRot, pnpTrans], evalV2 (pnpCost3 c.inTarget c.inImage)⟩ : ResBlock V3).residual (γ u)) = _ :=
      funext fun u => show pnpCost3 c.inTarget c.inImage (γ u pnpRot) (γ u pnpTrans) = _ by rw [h1, h2]
    rw [e]
    exact DerivList.point3 c.inImage (pnp_speed _ _ _ hrot _)
  · simp only [pnpVel_shift hrot]
    exact ⟨1, _, rfl, one_ne_zero⟩
  · obtain ⟨x, hx⟩ := hline c hc
    have := hv x
    unfold pnpBuild3 at this he
    simp only [hx, this, List.mem_cons, List.not_mem_nil, or_false] at he
    rcases he with rfl | rfl | rfl <;> rfl

/-- PnP from pixels: the same, unless a point ends exactly at the depth at which the projection changes its formula. -/
theorem C196_2d (s : Ceres V3) (hr : RejectsSingular s vecElem (fun _ => 3) fun st => st pnpRot ≠ 0) (p : PnPProblem Corr2)
    (hf : p.intr.fx ≠ 0) (hn : 3 ≤ p.correspondences.length) (q₀ b : V3)
    (hline : ∀ k ∈ p.correspondences, ∃ x : ℝ, k.inTarget = q₀ + V3.smul x b) (res : PnPResult) (h : pnp2 s p = .ok res)
    (hz : ∀ k ∈ p.correspondences, (res.cameraToTarget.apply k.inTarget).z ≠ 1 / 10 ^ 10) : res.cameraToTarget.R = 1 := by
  by_contra hR
  have hne : p.correspondences ≠ [] := by intro h; rw [h] at hn; simp at hn
  obtain ⟨-, h2, -⟩ := pnpFinish_ok h
  have hrot := turned_ne_zero (by rw [← h2]; exact hR)
  rw [h2] at hz
  obtain ⟨dr, dt, hd, hv⟩ := pnp_line_still _ (s.solve (pnpBuild2 p) (pnpInit p.guess) pnpTrans) q₀ b hrot
  refine pnp_rejected hr hne (g := fun c : Corr2 => ⟨[pnpRot, pnpTrans], evalV2 (pnpCost2 p.intr c.inTarget c.inImage)⟩) (fun _ _ => rfl)
    (m := 2) (fun _ _ _ => rfl) (by omega) rfl hrot
    (vel := fun c dr dt =>
      [(pixelSpeedE p.intr ((pnpTransform (s.solve (pnpBuild2 p) (pnpInit p.guess) pnpRot)
          (s.solve (pnpBuild2 p) (pnpInit p.guess) pnpTrans)).apply c.inTarget)
        (pnpVel dr dt c.inTarget (s.solve (pnpBuild2 p) (pnpInit p.guess) pnpRot))).x,
       (pixelSpeedE p.intr ((pnpTransform (s.solve (pnpBuild2 p) (pnpInit p.guess) pnpRot)
          (s.solve (pnpBuild2 p) (pnpInit p.guess) pnpTrans)).apply c.inTarget)
        (pnpVel dr dt c.inTarget (s.solve (pnpBuild2 p) (pnpInit p.guess) pnpRot))).y])
    (fun c hc γ dr dt h1 h2 => ?_) (fun c _ => ?_) hd (fun c hc e he => ?_) h
  · have e : (fun u => (⟨[pnpRot, pnpTrans], evalV2 (pnpCost2 p.intr c.inTarget c.inImage)⟩ : ResBlock V3).residual (γ u)) = _ :=
      funext fun u => show pnpCost2 p.intr c.inTarget c.inImage (γ u pnpRot) (γ u pnpTrans) = _ by rw [h1, h2]
    rw [e]
    have z : ∀ a b : V3, a + V3.smul (0 : ℝ) b = a := fun a b => by ext <;> simp [V3.smul]
    have hk := DerivList.pixelE p.intr c.inImage (pnp_speed dr dt c.inTarget hrot (s.solve (pnpBuild2 p) (pnpInit p.guess) pnpTrans))
      (by rw [z, z]; exact hz c hc)
    simp only [z] at hk
    exact hk
  · simp only [pnpVel_shift hrot]
    exact ⟨_, _, rfl, pixelSpeedE_shift hf _⟩
  · obtain ⟨x, hx⟩ := hline c hc
    have := hv x
    unfold pnpBuild2 at this he
    simp only [hx, this, pixelSpeedE_zero, List.mem_cons, List.not_mem_nil, or_false] at he
    rcases he with rfl | rfl <;> rfl

/-! ## C198 Circle fit -/

/-- Move the elements of all blocks straight. -/
def memAlong (d : Nat → Nat → ℝ) (st : Nat → Mem) (u : ℝ) : Nat → Mem := fun b k => st b k + u * d b k

theorem memAlong_zero (d : Nat → Nat → ℝ) (st : Nat → Mem) : memAlong d st 0 = st := by
  funext b k; simp [memAlong]

theorem memAlong_straight (d : Nat → Nat → ℝ) (st : Nat → Mem) : Straight (fun (m : Mem) k => m k) (memAlong d st) d := by
  intro u b k
  simp [memAlong]

theorem line_deriv (x d : ℝ) : HasDerivAt (fun u : ℝ => x + u * d) d 0 := by
  simpa using ((hasDerivAt_id (0 : ℝ)).mul_const d).const_add x

/-- Derivative of the residual of one point. -/
theorem circle_deriv (o : V2) {γ : ℝ → Nat → Mem} {d : Nat → Nat → ℝ} (hγ : Straight (fun (m : Mem) k => m k) γ d) :
    DerivList (fun u => (⟨[0], evalMem1 (circleCost o)⟩ : ResBlock Mem).residual (γ u))
      [2 * (o.x - γ 0 0 0) * d 0 0 + 2 * (o.y - γ 0 0 1) * d 0 1 + 4 * γ 0 0 2 ^ 3 * d 0 2] := by
  refine ⟨[fun u => (γ u 0 2 * γ u 0 2) * (γ u 0 2 * γ u 0 2) - (o.x - γ u 0 0) * (o.x - γ u 0 0) -
    (o.y - γ u 0 1) * (o.y - γ u 0 1)], fun _ => rfl, .cons ?_ .nil⟩
  have e : ∀ k, (fun u => γ u 0 k) = fun u => γ 0 0 k + u * d 0 k := fun k => funext fun u => hγ u 0 k
  have h : ∀ k, HasDerivAt (fun u => γ u 0 k) (d 0 k) 0 := fun k => by rw [e]; exact line_deriv _ _
  have h2 := (h 2).fun_mul (h 2)
  have hx := (h 0).const_sub o.x
  have hy := (h 1).const_sub o.y
  refine (((h2.fun_mul h2).fun_sub (hx.fun_mul hx)).fun_sub (hy.fun_mul hy)).congr_deriv ?_
  ring

theorem circle_all_deriv (l : List V2) {γ : ℝ → Nat → Mem} {d : Nat → Nat → ℝ} (hγ : Straight (fun (m : Mem) k => m k) γ d) :
    DerivList (fun u => residuals (l.map fun o => (⟨[0], evalMem1 (circleCost o)⟩ : ResBlock Mem)) (γ u))
      (l.flatMap fun o => [2 * (o.x - γ 0 0 0) * d 0 0 + 2 * (o.y - γ 0 0 1) * d 0 1 + 4 * γ 0 0 2 ^ 3 * d 0 2]) := by
  simp only [residuals_map]
  exact DerivList.flatMap fun o _ => circle_deriv o hγ

theorem circle_used {l : List V2} (hl : l ≠ []) :
    (usedBlocks (l.map fun o => (⟨[0], evalMem1 (circleCost o)⟩ : ResBlock Mem))).Perm [0] :=
  usedBlocks_const l hl _ [0] (by decide) fun _ _ => rfl

/-- Which states of a circle fit are singular: radius zero or all points on one line, except if all points are at the centre
and the radius is zero (then no derivative is other than zero). -/
theorem circle_singular_iff {l : List V2} (hn : 3 ≤ l.length) (st : Nat → Mem) :
    Singular (fun (m : Mem) k => m k) (fun _ => 3) (l.map fun o => (⟨[0], evalMem1 (circleCost o)⟩ : ResBlock Mem)) st ↔
      ¬ (st 0 2 = 0 ∧ ∀ o ∈ l, o = ⟨st 0 0, st 0 1⟩) ∧
      (st 0 2 = 0 ∨ ∃ a b c : ℝ, (a ≠ 0 ∨ b ≠ 0) ∧ ∀ o ∈ l, a * o.x + b * o.y = c) := by
  have hl : l ≠ [] := by intro h; rw [h] at hn; simp at hn
  have hperm := circle_used hl
  have hflat : ∀ (d : Nat → Nat → ℝ) (i : Nat) (o : V2), l[i]? = some o →
      (l.flatMap fun o => [2 * (o.x - st 0 0) * d 0 0 + 2 * (o.y - st 0 1) * d 0 1 + 4 * st 0 2 ^ 3 * d 0 2]).getD i 0 =
        2 * (o.x - st 0 0) * d 0 0 + 2 * (o.y - st 0 1) * d 0 1 + 4 * st 0 2 ^ 3 * d 0 2 := by
    intro d i o ho
    rw [← List.map_eq_flatMap, List.getD_eq_getElem?_getD, List.getElem?_map, ho]
    rfl
  constructor
  · intro h
    refine ⟨?_, ?_⟩
    · rintro ⟨h1, h2⟩
      obtain ⟨γ, d, h0, hγ, i, v, hv, hs⟩ := h.moves
      have := (circle_all_deriv l hγ).speed i
      rw [h0, getD_zero] at this
      · exact hv (HasDerivAt.unique hs this)
      · intro e he
        obtain ⟨o, ho, he⟩ := List.mem_flatMap.1 he
        rw [List.mem_singleton] at he
        rw [he, h2 o ho, h1]
        simp
    · obtain ⟨γ, d, h0, hγ, ⟨b, hb, k, hk, hne⟩, hs⟩ := h.still
      have hb0 : b = 0 := by simpa using hperm.subset hb
      subst hb0
      by_cases hr : st 0 2 = 0
      · exact Or.inl hr
      · right
        have key : ∀ o ∈ l, 2 * (o.x - st 0 0) * d 0 0 + 2 * (o.y - st 0 1) * d 0 1 + 4 * st 0 2 ^ 3 * d 0 2 = 0 := by
          intro o ho
          obtain ⟨i, hi, hio⟩ := List.mem_iff_getElem.1 ho
          have := (circle_all_deriv l hγ).speed i
          rw [h0, hflat d i o (by rw [List.getElem?_eq_getElem hi, hio])] at this
          exact this.unique (hs i)
        refine ⟨d 0 0, d 0 1, st 0 0 * d 0 0 + st 0 1 * d 0 1 - 2 * st 0 2 ^ 3 * d 0 2, ?_, fun o ho => by linear_combination (1 / 2) * key o ho⟩
        by_contra hall
        push Not at hall
        obtain ⟨h1, h2⟩ := hall
        obtain ⟨o, ho⟩ := List.exists_mem_of_ne_nil _ hl
        have := key o ho
        rw [h1, h2] at this
        have h3 : d 0 2 = 0 := by
          have : st 0 2 ^ 3 * d 0 2 = 0 := by linarith
          exact (mul_eq_zero.1 this).resolve_left (pow_ne_zero 3 hr)
        interval_cases k
        · exact hne h1
        · exact hne h2
        · exact hne h3
  · rintro ⟨hmov, hbad⟩
    have hstill : ∀ d : Nat → Nat → ℝ, (∃ k < 3, d 0 k ≠ 0) →
        (∀ o ∈ l, 2 * (o.x - st 0 0) * d 0 0 + 2 * (o.y - st 0 1) * d 0 1 + 4 * st 0 2 ^ 3 * d 0 2 = 0) →
        ∃ γ d, γ 0 = st ∧ Straight (fun (m : Mem) k => m k) γ d ∧
          (∃ b ∈ usedBlocks (l.map fun o => (⟨[0], evalMem1 (circleCost o)⟩ : ResBlock Mem)), ∃ k < 3, d b k ≠ 0) ∧
          ∀ i, Speed (l.map fun o => (⟨[0], evalMem1 (circleCost o)⟩ : ResBlock Mem)) γ i 0 := by
      intro d hd hv
      refine ⟨memAlong d st, d, memAlong_zero _ _, memAlong_straight _ _, ⟨0, hperm.symm.subset (by simp), hd⟩, fun i => ?_⟩
      have := (circle_all_deriv l (memAlong_straight d st)).speed i
      rw [memAlong_zero, getD_zero] at this
      · exact this
      · intro e he
        obtain ⟨o, ho, he⟩ := List.mem_flatMap.1 he
        rw [List.mem_singleton] at he
        rw [he, hv o ho]
    refine ⟨?_, fun γ d h0 hγ i => ⟨_, (circle_all_deriv l hγ).speed i⟩, ?_, ?_⟩
    · rw [sum_const_three, hperm.length_eq, residuals_map, List.length_flatMap]
      have : (l.map fun a => ((⟨[0], evalMem1 (circleCost a)⟩ : ResBlock Mem).residual st).length).sum = l.length := by
        have e : ∀ a : V2, ((⟨[0], evalMem1 (circleCost a)⟩ : ResBlock Mem).residual st).length = 1 := fun _ => rfl
        simp [e]
      rw [this]
      simpa using hn
    · have hsp : ∀ d : Nat → Nat → ℝ, ∀ o ∈ l, 2 * (o.x - st 0 0) * d 0 0 + 2 * (o.y - st 0 1) * d 0 1 + 4 * st 0 2 ^ 3 * d 0 2 ≠ 0 →
          ∃ γ d, γ 0 = st ∧ Straight (fun (m : Mem) k => m k) γ d ∧
            ∃ i v, v ≠ 0 ∧ Speed (l.map fun o => (⟨[0], evalMem1 (circleCost o)⟩ : ResBlock Mem)) γ i v := by
        intro d o ho hne
        obtain ⟨i, hi, hio⟩ := List.mem_iff_getElem.1 ho
        refine ⟨memAlong d st, d, memAlong_zero _ _, memAlong_straight _ _, i, _, hne, ?_⟩
        have := (circle_all_deriv l (memAlong_straight d st)).speed i
        rw [memAlong_zero, hflat d i o (by rw [List.getElem?_eq_getElem hi, hio])] at this
        exact this
      by_cases hr : st 0 2 = 0
      · have : ∃ o ∈ l, o ≠ ⟨st 0 0, st 0 1⟩ := by
          by_contra hall
          push Not at hall
          exact hmov ⟨hr, hall⟩
        obtain ⟨o, ho, hne⟩ := this
        by_cases hx : o.x = st 0 0
        · have hy : o.y ≠ st 0 1 := fun h => hne (V2.ext hx h)
          refine hsp (fun _ k => if k = 1 then 1 else 0) o ho ?_
          simpa [sub_eq_zero] using hy
        · refine hsp (fun _ k => if k = 0 then 1 else 0) o ho ?_
          simpa [sub_eq_zero] using hx
      · obtain ⟨o, ho⟩ := List.exists_mem_of_ne_nil _ hl
        refine hsp (fun _ k => if k = 2 then 1 else 0) o ho ?_
        simpa using hr
    · by_cases hr : st 0 2 = 0
      · exact hstill (fun _ k => if k = 2 then 1 else 0) ⟨2, by norm_num, by simp⟩ fun o _ => by simp [hr]
      · obtain ⟨a, b, c, hab, hline⟩ := hbad.resolve_left hr
        refine hstill (fun _ k => match k with
          | 0 => a | 1 => b | _ => -(c - a * st 0 0 - b * st 0 1) / (2 * st 0 2 ^ 3)) ?_ fun o ho => ?_
        · rcases hab with h | h
          · exact ⟨0, by norm_num, h⟩
          · exact ⟨1, by norm_num, h⟩
        · have := hline o ho
          simp only
          field_simp
          linear_combination 4 * this

/-- A circle fit to three or more points that returns has a radius other than zero and points that are not all on one line; the
only other case is that all points coincide with the reported centre. -/
theorem C198_circle (s : Ceres Mem) (hs : s.WF) (hr : RejectsSingular s (fun (m : Mem) k => m k) (fun _ => 3) fun _ => True)
    (p : CircleFitProblem) (hn : 3 ≤ p.observations.length) (res : CircleFitResult) (h : circleFit s p = .ok res) :
    (res.radius ≠ 0 ∧ ∃ a ∈ p.observations, ∃ b ∈ p.observations, ∃ c ∈ p.observations, Triangle2 a b c) ∨
      (res.radius = 0 ∧ ∀ o ∈ p.observations, o = ⟨res.xCenter, res.yCenter⟩) := by
  have hne : p.observations ≠ [] := by intro h; rw [h] at hn; simp at hn
  unfold circleFit at h
  simp only [Res.bind_ok_iff] at h
  obtain ⟨cov, hc, h⟩ := h
  have hsing : ¬ Singular (fun (m : Mem) k => m k) (fun _ => 3) (circleBuild p) (s.solve (circleBuild p) (circleInit p)) := fun hsing =>
    computeCovariance_rejected (hr _ _ _ (hs.order_perm _) trivial hsing) _ hc
  unfold circleBuild at hsing
  rw [circle_singular_iff hn] at hsing
  cases h
  simp only
  change ¬ (¬ ((s.solve (circleBuild p) (circleInit p)) 0 2 = 0 ∧ ∀ o ∈ p.observations, o = ⟨(s.solve (circleBuild p) (circleInit p)) 0 0,
    (s.solve (circleBuild p) (circleInit p)) 0 1⟩) ∧ ((s.solve (circleBuild p) (circleInit p)) 0 2 = 0 ∨ _)) at hsing
  generalize s.solve (circleBuild p) (circleInit p) = st at hsing
  by_cases h0 : st 0 2 = 0 ∧ ∀ o ∈ p.observations, o = ⟨st 0 0, st 0 1⟩
  · exact Or.inr ⟨by rw [h0.1]; norm_num, h0.2⟩
  · left
    have hsing := fun h => hsing ⟨h0, h⟩
    refine ⟨fun h => hsing (Or.inl (pow_eq_zero_iff (by norm_num) |>.1 h)), ?_⟩
    by_contra hall
    push Not at hall
    apply hsing
    right
    -- all points are on one line
    by_cases hd : ∃ a ∈ p.observations, ∃ b ∈ p.observations, a ≠ b
    · obtain ⟨a, ha, b, hb, hab⟩ := hd
      refine ⟨-(b.y - a.y), b.x - a.x, (b.x - a.x) * a.y - (b.y - a.y) * a.x, ?_, fun o ho => ?_⟩
      · by_contra hz
        push Not at hz
        exact hab (V2.ext (by linarith [hz.2]) (by linarith [hz.1]))
      · have := hall a ha b hb o ho
        unfold Triangle2 at this
        push Not at this
        linear_combination this
    · push Not at hd
      obtain ⟨a, ha⟩ := List.exists_mem_of_ne_nil _ hne
      exact ⟨1, 0, a.x, by simp, fun o ho => by rw [hd o ho a ha]; ring⟩

/-- The derivatives of a fit with radius other than zero to points that are not all on one line are not singular. -/
theorem C198_regular (p : CircleFitProblem) (st : Nat → Mem) (hr : st 0 2 ≠ 0)
    (ht : ∃ a ∈ p.observations, ∃ b ∈ p.observations, ∃ c ∈ p.observations, Triangle2 a b c) (d : Nat → Nat → ℝ) (γ : ℝ → Nat → Mem)
    (h0 : γ 0 = st) (hγ : Straight (fun (m : Mem) k => m k) γ d) (hd : ∃ k < 3, d 0 k ≠ 0) :
    ∃ i v, v ≠ 0 ∧ Speed (circleBuild p) γ i v := by
  by_contra hall
  push Not at hall
  obtain ⟨a, ha, b, hb, c, hc, habc⟩ := ht
  have key : ∀ o ∈ p.observations, 2 * (o.x - st 0 0) * d 0 0 + 2 * (o.y - st 0 1) * d 0 1 + 4 * st 0 2 ^ 3 * d 0 2 = 0 := by
    intro o ho
    obtain ⟨i, hi, hio⟩ := List.mem_iff_getElem.1 ho
    have := (circle_all_deriv p.observations hγ).speed i
    rw [h0, ← List.map_eq_flatMap, List.getD_eq_getElem?_getD, List.getElem?_map, List.getElem?_eq_getElem hi, hio] at this
    by_contra hne
    exact hall i _ hne this
  have k1 := key a ha
  have k2 := key b hb
  have k3 := key c hc
  unfold Triangle2 at habc
  have h1 : d 0 0 = 0 := by
    have : d 0 0 * ((b.x - a.x) * (c.y - a.y) - (b.y - a.y) * (c.x - a.x)) = 0 := by
      linear_combination (1 / 2) * ((c.y - a.y) * (k2 - k1) - (b.y - a.y) * (k3 - k1))
    exact (mul_eq_zero.1 this).resolve_right habc
  have h2 : d 0 1 = 0 := by
    have : d 0 1 * ((b.x - a.x) * (c.y - a.y) - (b.y - a.y) * (c.x - a.x)) = 0 := by
      linear_combination (1 / 2) * ((b.x - a.x) * (k3 - k1) - (c.x - a.x) * (k2 - k1))
    exact (mul_eq_zero.1 this).resolve_right habc
  have h3 : d 0 2 = 0 := by
    rw [h1, h2] at k1
    have : st 0 2 ^ 3 * d 0 2 = 0 := by linarith
    exact (mul_eq_zero.1 this).resolve_left (pow_ne_zero 3 hr)
  obtain ⟨k, hk, hne⟩ := hd
  interval_cases k
  · exact hne h1
  · exact hne h2
  · exact hne h3

/-! ## Concrete cases -/

/-- A solver for PnP that reports singular Jacobians. -/
noncomputable def vecRank : Ceres V3 := rankCeres vecElem (fun _ => 3) fun st => st pnpRot ≠ 0

/-- `C196_3d`: three points on a line and a turned guess. -/
example (intr : Intr) (res : PnPResult) : pnp3 vecRank ⟨intr, [⟨⟨0, 0, 1⟩, ⟨0, 0, 0⟩⟩, ⟨⟨0, 1, 1⟩, ⟨1, 0, 0⟩⟩, ⟨⟨0, 2, 1⟩, ⟨2, 0, 0⟩⟩], quarterX, "a"⟩ ≠ .ok res := by
  obtain ⟨p, hp⟩ : ∃ p : PnPProblem Corr3, p = ⟨intr, [⟨⟨0, 0, 1⟩, ⟨0, 0, 0⟩⟩, ⟨⟨0, 1, 1⟩, ⟨1, 0, 0⟩⟩, ⟨⟨0, 2, 1⟩, ⟨2, 0, 0⟩⟩], quarterX, "a"⟩ := ⟨_, rfl⟩
  rw [← hp]
  intro h
  have h1 := C196_3d vecRank (rankCeres_rejects _ _ _) p (by rw [hp]; simp) ⟨0, 0, 0⟩ ⟨1, 0, 0⟩ (by
    rw [hp]
    intro k hk
    refine ⟨k.inTarget.x, ?_⟩
    simp only [List.mem_cons, List.not_mem_nil, or_false] at hk
    rcases hk with rfl | rfl | rfl <;> ext <;> simp [V3.smul]) res h
  rw [C34_pnp_3d vecRank p res (fun _ _ => rfl) (by rw [hp]; exact quarterX_rep.1) h, hp] at h1
  have := congrArg M3.m11 h1
  simp [quarterX] at this

/-- `C196_2d`: the same from pixels. -/
example (res : PnPResult) : pnp2 vecRank ⟨⟨1, 1, 0, 0⟩, [⟨⟨0, 0⟩, ⟨0, 0, 0⟩⟩, ⟨⟨0, 1⟩, ⟨1, 0, 0⟩⟩, ⟨⟨0, 2⟩, ⟨2, 0, 0⟩⟩], quarterX, "a"⟩ ≠ .ok res := by
  obtain ⟨p, hp⟩ : ∃ p : PnPProblem Corr2, p = ⟨⟨1, 1, 0, 0⟩, [⟨⟨0, 0⟩, ⟨0, 0, 0⟩⟩, ⟨⟨0, 1⟩, ⟨1, 0, 0⟩⟩, ⟨⟨0, 2⟩, ⟨2, 0, 0⟩⟩], quarterX, "a"⟩ := ⟨_, rfl⟩
  rw [← hp]
  intro h
  have hg := C34_pnp vecRank p res (fun _ _ => rfl) (by rw [hp]; exact quarterX_rep.1) h
  have h1 := C196_2d vecRank (rankCeres_rejects _ _ _) p (by rw [hp]; norm_num) (by rw [hp]; decide) ⟨0, 0, 0⟩ ⟨1, 0, 0⟩ (by
    rw [hp]
    intro k hk
    refine ⟨k.inTarget.x, ?_⟩
    simp only [List.mem_cons, List.not_mem_nil, or_false] at hk
    rcases hk with rfl | rfl | rfl <;> ext <;> simp [V3.smul]) res h (by
    rw [hg, hp]
    intro k hk
    simp only [List.mem_cons, List.not_mem_nil, or_false] at hk
    rcases hk with rfl | rfl | rfl <;> norm_num [Iso.apply, quarterX, M3.mulVec])
  rw [hg, hp] at h1
  have := congrArg M3.m11 h1
  simp [quarterX] at this

/-- A solver for circles that reports singular Jacobians. -/
noncomputable def circleRank : Ceres Mem := rankCeres (fun (m : Mem) k => m k) (fun _ => 3) fun _ => True

/-- `C198_circle`: a fit to four points of a circle returns, a fit to points of a line does not. -/
example : (∃ res, circleFit circleRank ⟨[⟨6, 2⟩, ⟨1, 7⟩, ⟨-4, 2⟩, ⟨4, 6⟩], 0, 0, 1⟩ = .ok res) ∧
    ∀ res, circleFit circleRank ⟨[⟨0, 0⟩, ⟨1, 1⟩, ⟨2, 2⟩], 0, 0, 1⟩ ≠ .ok res := by
  constructor
  · obtain ⟨p, hp⟩ : ∃ p : CircleFitProblem, p = ⟨[⟨6, 2⟩, ⟨1, 7⟩, ⟨-4, 2⟩, ⟨4, 6⟩], 0, 0, 1⟩ := ⟨_, rfl⟩
    rw [← hp]
    obtain ⟨res, h⟩ := circle_id_returns p (by rw [hp]; simp)
    refine ⟨res, ?_⟩
    rw [← h]
    have hsing : ¬ Singular (fun (m : Mem) k => m k) (fun _ => 3) (circleBuild p) (circleInit p) := by
      unfold circleBuild
      rw [circle_singular_iff (by rw [hp]; decide)]
      rintro ⟨-, h0 | ⟨a, b, c, hab, hl⟩⟩
      · rw [hp] at h0
        simp [circleInit] at h0
      · rw [hp] at hl
        have l1 := hl ⟨6, 2⟩ (by simp)
        have l2 := hl ⟨1, 7⟩ (by simp)
        have l3 := hl ⟨-4, 2⟩ (by simp)
        simp only at l1 l2 l3
        rcases hab with h | h
        · exact h (by linarith)
        · exact h (by linarith)
    have e : circleRank.covSolver (circleBuild p) (circleInit p) 3 = (idCeres Mem).covSolver (circleBuild p) (circleInit p) 3 := by
      unfold Ceres.covSolver
      congr 1
      funext l
      exact congrArg Res.ok (@decide_eq_true _ (Classical.dec _) fun h => hsing h.2.2)
    show (computeCovariance (circleRank.covSolver (circleBuild p) (circleInit p) 3) _ _ _).bind _ = _
    rw [e]
    rfl
  · intro res h
    rcases C198_circle circleRank (rankCeres_wf _ _ _) (rankCeres_rejects _ _ _) _ (by decide) res h with ⟨-, a, ha, b, hb, c, hc, ht⟩ | ⟨-, h0⟩
    · have key : ∀ o ∈ ([⟨0, 0⟩, ⟨1, 1⟩, ⟨2, 2⟩] : List V2), o.x = o.y := by
        intro o ho
        simp only [List.mem_cons, List.not_mem_nil, or_false] at ho
        rcases ho with rfl | rfl | rfl <;> rfl
      apply ht
      rw [key a ha, key b hb, key c hc]
      ring
    · have h1 := h0 ⟨0, 0⟩ (by simp)
      have h2 := h0 ⟨1, 1⟩ (by simp)
      rw [← h1] at h2
      simpa using congrArg V2.x h2

/-- `C198_regular`: three points on a circle. -/
example : (∃ a ∈ ([⟨0, 0⟩, ⟨1, 0⟩, ⟨0, 1⟩] : List V2), ∃ b ∈ ([⟨0, 0⟩, ⟨1, 0⟩, ⟨0, 1⟩] : List V2),
    ∃ c ∈ ([⟨0, 0⟩, ⟨1, 0⟩, ⟨0, 1⟩] : List V2), Triangle2 a b c) ∧
    Straight (fun (m : Mem) k => m k) (memAlong (fun _ _ => 1) fun _ _ => 1) fun _ _ => 1 :=
  ⟨⟨⟨0, 0⟩, by simp, ⟨1, 0⟩, by simp, ⟨0, 1⟩, by simp, by norm_num [Triangle2]⟩, memAlong_straight _ _⟩

end RCT
