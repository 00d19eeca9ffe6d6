import Verif.Props.RankIntrinsic
import Verif.Props.IdentifyIntrinsic

/-!
# C205 Targets parallel to the image

If all features of every image have the same depth, the focal lengths cannot be told from the distances of the targets, whatever
the lens distortion and the noise.
-/

namespace RCT

open Spec Filter Topology

/-- A term of the lens model while focal length and distance grow together. -/
theorem growth_deriv (a : ℝ) (n : ℕ) :
    HasDerivAt (fun u : ℝ => (1 + u) * (1 + a * u) * (1 / (1 + u)) ^ n) (1 + a - n) 0 := by
  have h1 : HasDerivAt (fun u : ℝ => 1 + u) 1 0 := (hasDerivAt_id (0 : ℝ)).const_add 1
  have h2 : HasDerivAt (fun u : ℝ => 1 + a * u) a 0 := by
    simpa using ((hasDerivAt_id (0 : ℝ)).const_mul a).const_add 1
  have h3 : HasDerivAt (fun u : ℝ => 1 / (1 + u)) (-1) 0 :=
    ((hasDerivAt_const (0 : ℝ) (1 : ℝ)).fun_div h1 (by norm_num)).congr_deriv (by norm_num)
  have h4 := (h1.fun_mul h2).fun_mul (h3.fun_pow n)
  exact h4.congr_deriv (by simp; ring)

/-- The lens model with all terms that grow together. -/
theorem frontal_still (f k1 k2 k3 p q x y c r : ℝ) :
    HasDerivAt (fun u : ℝ => f * x * ((1 + u) * (1 + 0 * u) * (1 / (1 + u)) ^ 1) +
      f * k1 * (r * x) * ((1 + u) * (1 + 2 * u) * (1 / (1 + u)) ^ 3) + f * k2 * (r * r * x) * ((1 + u) * (1 + 4 * u) * (1 / (1 + u)) ^ 5) +
      f * k3 * (r * (r * r) * x) * ((1 + u) * (1 + 6 * u) * (1 / (1 + u)) ^ 7) +
      f * (p * (r + 2 * (x * x)) + q * x * y * 2) * ((1 + u) * (1 + 1 * u) * (1 / (1 + u)) ^ 2) + c) 0 0 := by
  have := (((((growth_deriv 0 1).const_mul (f * x)).add ((growth_deriv 2 3).const_mul (f * k1 * (r * x)))).add
    ((growth_deriv 4 5).const_mul (f * k2 * (r * r * x)))).add ((growth_deriv 6 7).const_mul (f * k3 * (r * (r * r) * x)))).add
    ((growth_deriv 1 2).const_mul (f * (p * (r + 2 * (x * x)) + q * x * y * 2)))
  exact (this.add_const c).congr_deriv (by norm_num)

/-- The same pose at another depth. -/
theorem poseMem_depth (m m' : Mem) (w : ℝ) (h : ∀ n, n ≠ 5 → m' n = m n) (h5 : m' 5 = m 5 + w) (q : V3) :
    (poseCalToEigen m'.pose).apply q = ⟨((poseCalToEigen m.pose).apply q).x, ((poseCalToEigen m.pose).apply q).y,
      ((poseCalToEigen m.pose).apply q).z + w⟩ := by
  have e : m'.pose = m.pose.withTrans ⟨m 3, m 4, m 5 + w⟩ := by
    unfold Mem.pose Pose6.withTrans
    rw [h 0 (by norm_num), h 1 (by norm_num), h 2 (by norm_num), h 3 (by norm_num), h 4 (by norm_num), h5]
  rw [e, poseCalToEigen_withTrans]
  have ht := poseCalToEigen_t m.pose
  have hx := congrArg V3.x ht; have hy := congrArg V3.y ht; have hz := congrArg V3.z ht
  simp only [Pose6.trans, Mem.pose] at hx hy hz
  ext
  · simp only [Iso.apply, V3.add_x, Mem.pose, hx]
  · simp only [Iso.apply, V3.add_y, Mem.pose, hy]
  · simp only [Iso.apply, V3.add_z, Mem.pose, hz]; ring

/-- Speeds of the parameters while the camera zooms in and all targets move away. -/
def zoom (Z : Nat → ℝ) (st : Nat → Mem) : Nat → Nat → ℝ := fun b n =>
  if b = intrBlk then
    match n with
    | 0 => st intrBlk 0 | 1 => st intrBlk 1 | 4 => 2 * st intrBlk 4 | 5 => 4 * st intrBlk 5
    | 6 => st intrBlk 6 | 7 => st intrBlk 7 | 8 => 6 * st intrBlk 8 | _ => 0
  else if n = 5 then Z (b - 1) else 0

theorem intr_frontal_still {p : IntrinsicProblem} {poses : List (Option Pose6)} {st : Nat → Mem} {Z : Nat → ℝ}
    (hZ : SameDepths p.observations (fun i => poseCalToEigen (st (poseBlk i)).pose) Z)
    (hv : ∀ i ∈ validIdx poses, i < p.observations.length) {i₀ : Nat} (hi : i₀ ∈ validIdx poses)
    (hne : p.observations.getD i₀ [] ≠ []) :
    ∃ γ d, γ 0 = st ∧ Straight (fun (m : Mem) k => m k) γ d ∧
      (∃ b ∈ usedBlocks (intrBuild p poses), ∃ k < intrSize b, d b k ≠ 0) ∧ ∀ i, Speed (intrBuild p poses) γ i 0 := by
  refine ⟨memAlong (zoom Z st) st, zoom Z st, memAlong_zero _ _, memAlong_straight _ _, ⟨poseBlk i₀, ?_, 5, ?_, ?_⟩, fun i => ?_⟩
  · obtain ⟨k, hk⟩ := List.exists_mem_of_ne_nil _ hne
    exact mem_usedBlocks.2 ⟨_, mem_intrBuild.2 ⟨i₀, hi, k, hk, rfl⟩, by simp [intrBlock]⟩
  · simp [intrSize, poseBlk, intrBlk]
  · simpa [zoom, poseBlk, intrBlk] using (hZ i₀ (hv i₀ hi)).1
  · have hd : ∀ blk ∈ intrBuild p poses, DerivList (fun u => blk.residual (memAlong (zoom Z st) st u)) [0, 0] := by
      intro blk hb
      obtain ⟨j, hj, k, hk, rfl⟩ := mem_intrBuild.1 hb
      obtain ⟨hz0, hz⟩ := hZ j (hv j hj)
      have hz := hz k hk
      have hpt : ∀ u, (poseCalToEigen (memAlong (zoom Z st) st u (poseBlk j)).pose).apply k.inTarget =
          ⟨((poseCalToEigen (st (poseBlk j)).pose).apply k.inTarget).x, ((poseCalToEigen (st (poseBlk j)).pose).apply k.inTarget).y,
            Z j * (1 + u)⟩ := by
        intro u
        rw [poseMem_depth (st (poseBlk j)) _ (u * Z j) (fun n hn => ?_) ?_, hz]
        · congr 1; ring
        · simp [memAlong, zoom, poseBlk, intrBlk]
        · simp [memAlong, zoom, poseBlk, intrBlk, hn]
      have hin : ∀ u, (memAlong (zoom Z st) st u intrBlk).intr9 =
          ⟨st intrBlk 0 * (1 + u), st intrBlk 1 * (1 + u), st intrBlk 2, st intrBlk 3, st intrBlk 4 * (1 + 2 * u),
            st intrBlk 5 * (1 + 4 * u), st intrBlk 6 * (1 + u), st intrBlk 7 * (1 + u), st intrBlk 8 * (1 + 6 * u)⟩ := by
        intro u
        simp only [Mem.intr9, memAlong, zoom, if_true]
        congr 1 <;> ring
      simp only [intrBlock_residual, hpt, hin]
      obtain ⟨X, hX⟩ : ∃ X, X = ((poseCalToEigen (st (poseBlk j)).pose).apply k.inTarget).x / Z j := ⟨_, rfl⟩
      obtain ⟨Y, hY⟩ : ∃ Y, Y = ((poseCalToEigen (st (poseBlk j)).pose).apply k.inTarget).y / Z j := ⟨_, rfl⟩
      have eX : ∀ u : ℝ, ((poseCalToEigen (st (poseBlk j)).pose).apply k.inTarget).x / (Z j * (1 + u)) = X * (1 / (1 + u)) := by
        intro u; rw [hX, div_mul_div_comm, mul_one]
      have eY : ∀ u : ℝ, ((poseCalToEigen (st (poseBlk j)).pose).apply k.inTarget).y / (Z j * (1 + u)) = Y * (1 / (1 + u)) := by
        intro u; rw [hY, div_mul_div_comm, mul_one]
      have hev : ∀ᶠ u in 𝓝 (0 : ℝ), Z j * (1 + u) ≠ 0 := by
        have : ContinuousAt (fun u : ℝ => Z j * (1 + u)) 0 := by fun_prop
        exact this.eventually_ne (by simpa using hz0)
      refine ⟨[_, _], fun _ => rfl, .cons ?_ (.cons ?_ .nil)⟩
      · refine (frontal_still (st intrBlk 0) (st intrBlk 4) (st intrBlk 5) (st intrBlk 8) (st intrBlk 7) (st intrBlk 6) X Y
          (st intrBlk 2 - k.inImage.x) (X * X + Y * Y)).congr_of_eventuallyEq (hev.mono fun u hu => ?_)
        simp only [projectPoints2, if_neg hu, eX, eY]
        ring
      · refine (frontal_still (st intrBlk 1) (st intrBlk 4) (st intrBlk 5) (st intrBlk 8) (st intrBlk 6) (st intrBlk 7) Y X
          (st intrBlk 3 - k.inImage.y) (X * X + Y * Y)).congr_of_eventuallyEq (hev.mono fun u hu => ?_)
        simp only [projectPoints2, if_neg hu, eX, eY]
        ring
    have := (residuals_deriv hd).speed i
    rw [getD_zero] at this
    · exact this
    · intro e he
      obtain ⟨_, _, he⟩ := List.mem_flatMap.1 he
      simpa using he

/-- An intrinsic calibration that ends with all targets parallel to the image (more generally: with all features of each image at
the same depth) does not return. -/
theorem C205_singular (s3 : Ceres V3) (s : Ceres Mem) (p : IntrinsicProblem)
    (hr : RejectsSingular s (fun (m : Mem) k => m k) intrSize
      fun st => ∀ i < p.observations.length, PlainPose (st (poseBlk i)).pose)
    (hn : 9 + 6 * p.observations.length ≤ 2 * (p.observations.map List.length).sum)
    (hfin : ∀ poses, intrPoses s3 p = .ok poses → ∃ Z,
      SameDepths p.observations (fun i => poseCalToEigen (s.solve (intrBuild p poses) (intrInit p poses) (poseBlk i)).pose) Z)
    (hpl : ∀ poses, intrPoses s3 p = .ok poses → ∀ i < p.observations.length,
      PlainPose (s.solve (intrBuild p poses) (intrInit p poses) (poseBlk i)).pose)
    (res : IntrinsicResult) : intrinsic s3 s p ≠ .ok res := by
  refine intrinsic_fails s3 s p hr hn (fun poses hp i obs ho => ?_) (fun poses st hp hst hall hempty hf => ?_) res
  · have hil : i < p.observations.length := (List.getElem?_eq_some_iff.1 ho).1
    refine ⟨hpl poses hp i hil, fun k hk => ?_⟩
    obtain ⟨Z, hZ⟩ := hfin poses hp
    have hobs : p.observations.getD i [] = obs := by rw [List.getD_eq_getElem?_getD, ho]; rfl
    obtain ⟨h0, h1⟩ := hZ i hil
    rw [h1 k (by rw [hobs]; exact hk)]
    exact h0
  · obtain ⟨Z, hZ⟩ := hfin poses hp
    rw [← hst] at hZ
    have hil : 0 < p.observations.length := by
      rcases Nat.eq_zero_or_pos p.observations.length with h0 | h0
      · rw [List.length_eq_zero_iff] at h0
        rw [h0] at hn
        simp at hn
      · exact h0
    refine intr_frontal_still hZ (fun i hi => by rwa [hall, List.mem_range] at hi) (i₀ := 0) (by rw [hall]; exact List.mem_range.2 hil)
      fun h0 => hempty ?_
    rw [← h0, List.getD_eq_getElem?_getD, List.getElem?_eq_getElem hil]
    exact List.getElem_mem hil

/-- The parameters with focal lengths and depths times `a`. -/
def zoomed (Z : Nat → ℝ) (st : Nat → Mem) (a : ℝ) : Nat → Mem := fun b n =>
  if b = intrBlk then
    match n with
    | 0 => a * st intrBlk 0 | 1 => a * st intrBlk 1 | 2 => st intrBlk 2 | 3 => st intrBlk 3 | 4 => a ^ 2 * st intrBlk 4
    | 5 => a ^ 4 * st intrBlk 5 | 6 => a * st intrBlk 6 | 7 => a * st intrBlk 7 | 8 => a ^ 6 * st intrBlk 8 | m => st intrBlk m
  else if n = 5 then st b n + (a - 1) * Z (b - 1) else st b n

theorem zoomed_apply {Z : Nat → ℝ} {st : Nat → Mem} (a : ℝ) (j : Nat) {q : V3}
    (hz : ((poseCalToEigen (st (poseBlk j)).pose).apply q).z = Z j) :
    (poseCalToEigen (zoomed Z st a (poseBlk j)).pose).apply q =
      ⟨((poseCalToEigen (st (poseBlk j)).pose).apply q).x, ((poseCalToEigen (st (poseBlk j)).pose).apply q).y, a * Z j⟩ := by
  rw [poseMem_depth (st (poseBlk j)) _ ((a - 1) * Z j) (fun n hn => ?_) ?_, hz]
  · congr 1; ring
  · simp [zoomed, poseBlk, intrBlk]
  · simp [zoomed, poseBlk, intrBlk, hn]

/-- Whenever an intrinsic calibration ends with all features of each image at the same depth, there are other results with the same
final cost: for every `a` other than zero one with focal lengths `a` times as large and all targets `a` times as far away. -/
theorem C205_other (s3 : Ceres V3) (s : Ceres Mem) (hs : s.WF) (p : IntrinsicProblem) (res : IntrinsicResult)
    (h : intrinsic s3 s p = .ok res) (poses : List (Option Pose6)) (hp : intrPoses s3 p = .ok poses) (Z : Nat → ℝ)
    (hZ : SameDepths p.observations (fun i => poseCalToEigen (s.solve (intrBuild p poses) (intrInit p poses) (poseBlk i)).pose) Z)
    (a : ℝ) (ha : a ≠ 0) :
    ∃ (s' : Ceres Mem) (res' : IntrinsicResult), s'.WF ∧ intrinsic s3 s' p = .ok res' ∧ res'.finalCost = res.finalCost ∧
      res'.intrinsics = ⟨a * res.intrinsics.fx, a * res.intrinsics.fy, res.intrinsics.cx, res.intrinsics.cy⟩ ∧
      (∃ k1 k2 p1 p2 k3, res.distortions = [k1, k2, p1, p2, k3] ∧
        res'.distortions = [a ^ 2 * k1, a ^ 4 * k2, a * p1, a * p2, a ^ 6 * k3]) ∧
      SameDepths p.observations (fun i => poseCalToEigen (s'.solve (intrBuild p poses) (intrInit p poses) (poseBlk i)).pose)
        (fun i => a * Z i) := by
  classical
  obtain ⟨poses', hp', -, hcost, hin, hdist⟩ := intrinsic_ok h
  obtain rfl : poses' = poses := by rw [hp] at hp'; cases hp'; rfl
  obtain ⟨st, hst⟩ : ∃ st, st = s.solve (intrBuild p poses') (intrInit p poses') := ⟨_, rfl⟩
  rw [← hst] at hcost hin hdist hZ
  have hempty : [] ∉ p.observations := fun h0 => C90_intrinsic s3 s p (Or.inr h0) res h
  have hlen : 0 < p.observations.length := List.length_pos_iff.2 fun h0 => C90_intrinsic s3 s p (Or.inl h0) res h
  have hfeat : ∀ i, i < p.observations.length → ∃ k, (i, k) ∈ usableFeatures p.observations (validIdx poses') := by
    intro i hi
    have hget : p.observations.getD i [] = p.observations[i] := by simp [hi]
    have hn : p.observations[i] ≠ [] := fun h0 => hempty (by rw [← h0]; simp)
    obtain ⟨k, l, hkl⟩ := List.exists_cons_of_ne_nil hn
    exact ⟨k, (intrinsic_features h hp (i, k)).2 ⟨hi, by simp only [hget, hkl]; simp⟩⟩
  have hused : ∀ i k, (i, k) ∈ usableFeatures p.observations (validIdx poses') →
      poseBlk i ∈ usedBlocks (intrBuild p poses') ∧ intrBlk ∈ usedBlocks (intrBuild p poses') := by
    intro i k hk
    have hm : (⟨[poseBlk i, intrBlk], evalMem2 (intrinsicCost k.inTarget k.inImage)⟩ : ResBlock Mem) ∈ intrBuild p poses' := by
      rw [intrBuild_eq]
      exact List.mem_map.2 ⟨(i, k), hk, rfl⟩
    exact ⟨mem_usedBlocks.2 ⟨_, hm, by simp⟩, mem_usedBlocks.2 ⟨_, hm, by simp⟩⟩
  let st' : Nat → Mem := fun b => if b ∈ usedBlocks (intrBuild p poses') then zoomed Z st a b else intrInit p poses' b
  have hpb : ∀ i, i < p.observations.length → st' (poseBlk i) = zoomed Z st a (poseBlk i) := by
    intro i hi
    obtain ⟨k, hk⟩ := hfeat i hi
    simp only [st', if_pos (hused i k hk).1]
  have hib : st' intrBlk = zoomed Z st a intrBlk := by
    obtain ⟨k, hk⟩ := hfeat 0 hlen
    simp only [st', if_pos (hused 0 k hk).2]
  have hsame : residuals (intrBuild p poses') st' = residuals (intrBuild p poses') st := by
    rw [intrBuild_eq, residuals_map, residuals_map]
    refine flatMap_congr' fun f hf => ?_
    obtain ⟨h1, h2⟩ := (intrinsic_features h hp f).1 hf
    obtain ⟨hz0, hz⟩ := hZ f.1 h1
    have hz := hz f.2 h2
    have e1 := intrBlock_residual f.1 f.2 st'
    have e2 := intrBlock_residual f.1 f.2 st
    simp only [intrBlock] at e1 e2
    rw [e1, e2, hpb f.1 h1, hib, zoomed_apply a f.1 hz]
    have hin : (zoomed Z st a intrBlk).intr9 = ⟨a * st intrBlk 0, a * st intrBlk 1, st intrBlk 2, st intrBlk 3, a ^ 2 * st intrBlk 4,
        a ^ 4 * st intrBlk 5, a * st intrBlk 6, a * st intrBlk 7, a ^ 6 * st intrBlk 8⟩ := rfl
    have hin' : (st intrBlk).intr9 = ⟨st intrBlk 0, st intrBlk 1, st intrBlk 2, st intrBlk 3, st intrBlk 4,
        st intrBlk 5, st intrBlk 6, st intrBlk 7, st intrBlk 8⟩ := rfl
    have key : projectPoints2 (zoomed Z st a intrBlk).intr9 ⟨((poseCalToEigen (st (poseBlk f.1)).pose).apply f.2.inTarget).x,
        ((poseCalToEigen (st (poseBlk f.1)).pose).apply f.2.inTarget).y, a * Z f.1⟩ =
        projectPoints2 (st intrBlk).intr9 ((poseCalToEigen (st (poseBlk f.1)).pose).apply f.2.inTarget) := by
      rw [hin, hin']
      obtain ⟨P, hP⟩ : ∃ P, P = (poseCalToEigen (st (poseBlk f.1)).pose).apply f.2.inTarget := ⟨_, rfl⟩
      rw [← hP] at hz ⊢
      have hz' : P.z ≠ 0 := by rw [hz]; exact hz0
      obtain ⟨x, hx⟩ : ∃ x, x = P.x / (a * Z f.1) := ⟨_, rfl⟩
      obtain ⟨y, hy⟩ : ∃ y, y = P.y / (a * Z f.1) := ⟨_, rfl⟩
      have ex : P.x / P.z = a * x := by rw [hx, hz]; field_simp
      have ey : P.y / P.z = a * y := by rw [hy, hz]; field_simp
      simp only [projectPoints2, if_neg hz', if_neg (mul_ne_zero ha hz0), ex, ey, ← hx, ← hy]
      ext <;> simp only [] <;> ring
    rw [key]
  obtain ⟨hc, hco⟩ := costPerObs_congr hsame
  obtain ⟨s', res', w1, w2, w3, w4, w5, w6⟩ := intrinsic_other hs h hp (st' := st') (fun b hb => by simp only [st', if_neg hb])
    (by rw [hc, hst]; exact hs.descent _ _)
  refine ⟨s', res', w1, w2, by rw [w4, hco, hcost], ?_, ⟨_, _, _, _, _, hdist, ?_⟩, fun i hi => ?_⟩
  · rw [w5, hin, hib]; rfl
  · rw [w6, hib]; rfl
  · obtain ⟨hz0, hz⟩ := hZ i hi
    refine ⟨mul_ne_zero ha hz0, fun k hk => ?_⟩
    show ((poseCalToEigen (s'.solve (intrBuild p poses') (intrInit p poses') (poseBlk i)).pose).apply k.inTarget).z = a * Z i
    rw [w3, hpb i hi, zoomed_apply a i (hz k hk)]

/-! ### Examples -/

/-- Six features in a plane, seen twice. -/
def flatProblem : IntrinsicProblem :=
  ⟨List.replicate 2 [⟨⟨0, 0⟩, ⟨0, 0, 0⟩⟩, ⟨⟨1, 0⟩, ⟨1, 0, 0⟩⟩, ⟨⟨1, 1⟩, ⟨1, 1, 0⟩⟩, ⟨⟨0, 1⟩, ⟨0, 1, 0⟩⟩, ⟨⟨2, 0⟩, ⟨2, 0, 0⟩⟩, ⟨⟨0, 2⟩, ⟨0, 2, 0⟩⟩],
    ⟨1, 1, 0, 0⟩, "pose"⟩

theorem flatProblem_flat : ∀ obs ∈ flatProblem.observations, obs ≠ [] ∧ ∀ k ∈ obs, k.inTarget.z = 0 := by
  intro obs ho
  obtain rfl := List.eq_of_mem_replicate ho
  refine ⟨by simp, fun k hk => ?_⟩
  simp only [List.mem_cons, List.not_mem_nil, or_false] at hk
  rcases hk with rfl | rfl | rfl | rfl | rfl | rfl <;> rfl

theorem flatProblem_depths {poses : List (Option Pose6)} (hposes : intrPoses (idCeres V3) flatProblem = .ok poses) :
    SameDepths flatProblem.observations (fun i => poseCalToEigen ((intrRank flatProblem.observations.length).solve
      (intrBuild flatProblem poses) (intrInit flatProblem poses) (poseBlk i)).pose) (fun _ => 1 / 2) := by
  intro i hi
  refine ⟨by norm_num, fun k hk => ?_⟩
  rw [List.getD_eq_getElem?_getD, List.getElem?_eq_getElem hi] at hk
  exact (intrRank_flat flatProblem_flat hposes (List.getElem?_eq_getElem hi)).2 k hk

/-- `C205_singular`: two frontal images do not give a calibration. -/
example : ∀ res, intrinsic (idCeres V3) (intrRank flatProblem.observations.length) flatProblem ≠ .ok res :=
  C205_singular _ _ _ (rankCeres_rejects _ _ _) (by decide) (fun _ hp => ⟨_, flatProblem_depths hp⟩)
    fun _ hp i hi => (intrRank_flat flatProblem_flat hp (List.getElem?_eq_getElem hi)).1

/-- `C205_other`: with a solver that reports a covariance all the same, two frontal images fit focal lengths twice as large equally well. -/
example : ∃ (s s' : Ceres Mem) (res res' : IntrinsicResult), s.WF ∧ s'.WF ∧ intrinsic (idCeres V3) s flatProblem = .ok res ∧
    intrinsic (idCeres V3) s' flatProblem = .ok res' ∧ res'.finalCost = res.finalCost ∧ res.intrinsics.fx = 1 ∧ res'.intrinsics.fx = 2 := by
  obtain ⟨res, h⟩ := intrinsic_returns flatProblem.observations (by simp [flatProblem]) (fun obs ho => (flatProblem_flat obs ho).1) ⟨1, 1, 0, 0⟩
  change intrinsic (idCeres V3) (idCeres Mem) flatProblem = .ok res at h
  obtain ⟨poses, hp, -, -, hin, -⟩ := intrinsic_ok h
  obtain ⟨s', res', h1, h2, h3, h4, -⟩ := C205_other _ _ (idCeres_wf Mem) _ _ h poses hp _ (flatProblem_depths hp) 2 (by norm_num)
  have hfx : res.intrinsics.fx = 1 := by rw [hin]; rfl
  refine ⟨_, s', res, res', idCeres_wf Mem, h1, h, h2, h3, hfx, ?_⟩
  rw [h4, hfx]
  norm_num

end RCT
