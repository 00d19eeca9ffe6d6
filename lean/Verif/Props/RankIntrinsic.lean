import Verif.Props.Rank
import Verif.Props.RankFit
import Verif.Props.Reports
import Verif.Props.Guess
import Mathlib.Analysis.Calculus.Deriv.Prod

/-!
# C197 An image that does not determine the pose of the target makes the intrinsic calibration fail
-/

namespace RCT

open Spec Filter Topology

theorem projectPoints2_diff {i : ℝ → Mem} {f : ℝ → V3} {v : V3} (hi : ∀ k, DifferentiableAt ℝ (fun u => i u k) 0)
    (hf : SpeedV3 f v) (hz : (f 0).z ≠ 0) :
    DifferentiableAt ℝ (fun u => (projectPoints2 (i u).intr9 (f u)).x) 0 ∧
      DifferentiableAt ℝ (fun u => (projectPoints2 (i u).intr9 (f u)).y) 0 := by
  have hev : ∀ᶠ u in 𝓝 (0 : ℝ), (f u).z ≠ 0 := hf.z.continuousAt.eventually_ne hz
  have hx := (hf.x.fun_div hf.z hz).differentiableAt
  have hy := (hf.y.fun_div hf.z hz).differentiableAt
  have h0 := hi 0; have h1 := hi 1; have h2 := hi 2; have h3 := hi 3; have h4 := hi 4; have h5 := hi 5
  have h6 := hi 6; have h7 := hi 7; have h8 := hi 8
  constructor
  · refine DifferentiableAt.congr_of_eventuallyEq ?_ (hev.mono fun u hu => by
      simp only [projectPoints2, if_neg hu, Mem.intr9]; rfl)
    fun_prop
  · refine DifferentiableAt.congr_of_eventuallyEq ?_ (hev.mono fun u hu => by
      simp only [projectPoints2, if_neg hu, Mem.intr9]; rfl)
    fun_prop

/-- A point that does not move to first order does not move in the image. -/
theorem projectPoints2_still (i : Intr9) {f : ℝ → V3} (hf : SpeedV3 f 0) (hz : (f 0).z ≠ 0) :
    HasDerivAt (fun u => (projectPoints2 i (f u)).x) 0 0 ∧ HasDerivAt (fun u => (projectPoints2 i (f u)).y) 0 0 := by
  have hev : ∀ᶠ u in 𝓝 (0 : ℝ), (f u).z ≠ 0 := hf.z.continuousAt.eventually_ne hz
  have hx : HasDerivAt (fun u => (f u).x / (f u).z) 0 0 := (hf.x.fun_div hf.z hz).congr_deriv (by simp)
  have hy : HasDerivAt (fun u => (f u).y / (f u).z) 0 0 := (hf.y.fun_div hf.z hz).congr_deriv (by simp)
  have key : ∀ G : ℝ × ℝ → ℝ, Differentiable ℝ G → HasDerivAt (fun u => G ((f u).x / (f u).z, (f u).y / (f u).z)) 0 0 := by
    intro G hG
    have hxy : HasDerivAt (fun u => ((f u).x / (f u).z, (f u).y / (f u).z)) ((0 : ℝ), (0 : ℝ)) 0 := HasDerivAt.prodMk hx hy
    have := (hG ((f 0).x / (f 0).z, (f 0).y / (f 0).z)).hasFDerivAt.comp_hasDerivAt (f := fun u => ((f u).x / (f u).z, (f u).y / (f u).z)) (0 : ℝ) hxy
    exact this.congr_deriv (map_zero _)
  constructor
  · refine (key (fun q => i.fx * (q.1 + i.k1 * (q.1 * q.1 + q.2 * q.2) * q.1 +
      i.k2 * ((q.1 * q.1 + q.2 * q.2) * (q.1 * q.1 + q.2 * q.2)) * q.1 +
      i.k3 * ((q.1 * q.1 + q.2 * q.2) * ((q.1 * q.1 + q.2 * q.2) * (q.1 * q.1 + q.2 * q.2))) * q.1 +
      i.p2 * (q.1 * q.1 + q.2 * q.2 + 2 * (q.1 * q.1)) + i.p1 * q.1 * q.2 * 2) + i.cx) (by fun_prop)).congr_of_eventuallyEq
      (hev.mono fun u hu => ?_)
    simp only [projectPoints2, if_neg hu]
  · refine (key (fun q => i.fy * (q.2 + i.k1 * (q.1 * q.1 + q.2 * q.2) * q.2 +
      i.k2 * ((q.1 * q.1 + q.2 * q.2) * (q.1 * q.1 + q.2 * q.2)) * q.2 +
      i.k3 * ((q.1 * q.1 + q.2 * q.2) * ((q.1 * q.1 + q.2 * q.2) * (q.1 * q.1 + q.2 * q.2))) * q.2 +
      i.p1 * (q.1 * q.1 + q.2 * q.2 + 2 * (q.2 * q.2)) + i.p2 * q.1 * q.2 * 2) + i.cy) (by fun_prop)).congr_of_eventuallyEq
      (hev.mono fun u hu => ?_)
    simp only [projectPoints2, if_neg hu]

/-- The residual block of one feature of image `i`. -/
noncomputable def intrBlock (i : Nat) (k : Corr2) : ResBlock Mem :=
  ⟨[poseBlk i, intrBlk], evalMem2 (intrinsicCost k.inTarget k.inImage)⟩

theorem intrBlock_residual (i : Nat) (k : Corr2) (st : Nat → Mem) :
    (intrBlock i k).residual st =
      [(projectPoints2 (st intrBlk).intr9 ((poseCalToEigen (st (poseBlk i)).pose).apply k.inTarget)).x - k.inImage.x,
       (projectPoints2 (st intrBlk).intr9 ((poseCalToEigen (st (poseBlk i)).pose).apply k.inTarget)).y - k.inImage.y] := by
  simp only [intrBlock, ResBlock.residual, List.map_cons, List.map_nil, evalMem2, intrinsicCost, transformPoint_eq]

theorem mem_intrBuild {p : IntrinsicProblem} {poses : List (Option Pose6)} {b : ResBlock Mem} :
    b ∈ intrBuild p poses ↔ ∃ i ∈ validIdx poses, ∃ k ∈ p.observations.getD i [], b = intrBlock i k := by
  unfold intrBuild
  simp only [List.mem_flatMap, List.mem_map]
  constructor
  · rintro ⟨i, hi, k, hk, rfl⟩; exact ⟨i, hi, k, hk, rfl⟩
  · rintro ⟨i, hi, k, hk, rfl⟩; exact ⟨i, hi, k, hk, rfl⟩

theorem pose_moving {γ : ℝ → Nat → Mem} {d : Nat → Nat → ℝ} (hγ : Straight (fun (m : Mem) k => m k) γ d) (b : Nat) (q : V3)
    (hp : Plain (γ 0 b).pose) :
    SpeedV3 (fun u => (poseCalToEigen (γ u b).pose).apply q)
      ((poseTurn (γ 0 b).pose.rot (dRot (d b))).cross ((poseCalToEigen (γ 0 b).pose).R.mulVec q) + dTrans (d b)) := by
  have e : ∀ u, (γ u b).pose = poseAlong (d b) u (γ 0 b).pose := fun u =>
    Pose6.ext (hγ u b 0) (hγ u b 1) (hγ u b 2) (hγ u b 3) (hγ u b 4) (hγ u b 5)
  have := pose_speed (d b) hp (SpeedV3.const q)
  rw [show (poseCalToEigen (γ 0 b).pose).R.mulVec 0 = 0 by ext <;> simp [M3.mulVec], V3.add_zero] at this
  have e' : (fun u => (poseCalToEigen (γ u b).pose).apply q) = fun u => (poseCalToEigen (poseAlong (d b) u (γ 0 b).pose)).apply q :=
    funext fun u => by rw [e u]
  rw [e']
  exact this

/-- Singular, if some motion of the parameters leaves the residuals alone. -/
theorem intr_singular_of {p : IntrinsicProblem} {poses : List (Option Pose6)} {st : Nat → Mem}
    (hen : ((usedBlocks (intrBuild p poses)).map intrSize).sum ≤ (residuals (intrBuild p poses) st).length)
    (hfin : ∀ i ∈ validIdx poses, Plain (st (poseBlk i)).pose ∧
      ∀ k ∈ p.observations.getD i [], ((poseCalToEigen (st (poseBlk i)).pose).apply k.inTarget).z ≠ 0)
    {i₀ : Nat} (hi : i₀ ∈ validIdx poses) (hne : p.observations.getD i₀ [] ≠ [])
    (hstill : ∃ γ d, γ 0 = st ∧ Straight (fun (m : Mem) k => m k) γ d ∧
      (∃ b ∈ usedBlocks (intrBuild p poses), ∃ k < intrSize b, d b k ≠ 0) ∧ ∀ i, Speed (intrBuild p poses) γ i 0) :
    Singular (fun (m : Mem) k => m k) intrSize (intrBuild p poses) st := by
  refine ⟨hen, fun γ d h0 hγ i => smooth_of_blocks (fun blk hb => ?_) i, ?_, hstill⟩
  · obtain ⟨j, hj, k, hk, rfl⟩ := mem_intrBuild.1 hb
    obtain ⟨h1, h2⟩ := hfin j hj
    rw [← h0] at h1 h2
    have hs := pose_moving hγ (poseBlk j) k.inTarget h1
    have hi : ∀ n, DifferentiableAt ℝ (fun u => γ u intrBlk n) 0 := fun n => by
      have e : (fun u => γ u intrBlk n) = fun u => γ 0 intrBlk n + u * d intrBlk n := funext fun u => hγ u intrBlk n
      rw [e]
      exact (line_deriv _ _).differentiableAt
    obtain ⟨hx, hy⟩ := projectPoints2_diff hi hs (h2 k hk)
    simp only [intrBlock_residual]
    exact ⟨[_, _], [_, _], fun _ => rfl, .cons (hx.hasDerivAt.sub_const _) (.cons (hy.hasDerivAt.sub_const _) .nil)⟩
  · -- the centre moves
    refine ⟨memAlong (fun b n => if b = intrBlk ∧ n = 2 then 1 else 0) st, _, memAlong_zero _ _, memAlong_straight _ _, 0, 1,
      one_ne_zero, ?_⟩
    have hd : ∀ blk ∈ intrBuild p poses, DerivList (fun u => blk.residual (memAlong (fun b n => if b = intrBlk ∧ n = 2 then 1 else 0) st u))
        [1, 0] := by
      intro blk hb
      obtain ⟨j, hj, k, hk, rfl⟩ := mem_intrBuild.1 hb
      refine ⟨[fun u => ((intrBlock j k).residual st).getD 0 0 + u * 1, fun u => ((intrBlock j k).residual st).getD 1 0], fun u => ?_,
        .cons (line_deriv _ _) (.cons (hasDerivAt_const _ _) .nil)⟩
      simp only [intrBlock_residual]
      have e1 : memAlong (fun b n => if b = intrBlk ∧ n = 2 then 1 else 0) st u (poseBlk j) = st (poseBlk j) := by
        funext n
        simp [memAlong, poseBlk, intrBlk]
      have e2 : (memAlong (fun b n => if b = intrBlk ∧ n = 2 then 1 else 0) st u intrBlk).intr9 =
          { (st intrBlk).intr9 with cx := (st intrBlk).intr9.cx + u } := by
        simp [memAlong, Mem.intr9]
      rw [e1, e2]
      simp only [projectPoints2, List.map_cons, List.map_nil, List.getD_cons_zero, List.getD_cons_succ]
      congr 1
      ring
    have := (residuals_deriv hd).speed 0
    obtain ⟨k, hk⟩ := List.exists_mem_of_ne_nil _ hne
    have hmem := mem_intrBuild.2 ⟨i₀, hi, k, hk, rfl⟩
    unfold Speed
    convert this using 1
    cases hpb : intrBuild p poses with
    | nil => rw [hpb] at hmem; cases hmem
    | cons x l => simp

/-- An image whose features lie on one line: its target can turn about the line. -/
theorem intr_line_still {p : IntrinsicProblem} {poses : List (Option Pose6)} {st : Nat → Mem}
    {i₀ : Nat} (hi : i₀ ∈ validIdx poses) (hne : p.observations.getD i₀ [] ≠ []) (hpl : Plain (st (poseBlk i₀)).pose)
    (hz : ∀ k ∈ p.observations.getD i₀ [], ((poseCalToEigen (st (poseBlk i₀)).pose).apply k.inTarget).z ≠ 0) (q₀ b : V3)
    (hline : ∀ k ∈ p.observations.getD i₀ [], ∃ x : ℝ, k.inTarget = q₀ + V3.smul x b) :
    ∃ γ d, γ 0 = st ∧ Straight (fun (m : Mem) k => m k) γ d ∧
      (∃ b ∈ usedBlocks (intrBuild p poses), ∃ k < intrSize b, d b k ≠ 0) ∧ ∀ i, Speed (intrBuild p poses) γ i 0 := by
  obtain ⟨dt, hdt, hzero⟩ := line_still hpl q₀ b
  refine ⟨memAlong (fun b => if b = poseBlk i₀ then dt else fun _ => 0) st, _, memAlong_zero _ _, memAlong_straight _ _,
    ⟨poseBlk i₀, ?_, ?_⟩, fun i => ?_⟩
  · obtain ⟨k, hk⟩ := List.exists_mem_of_ne_nil _ hne
    exact mem_usedBlocks.2 ⟨_, mem_intrBuild.2 ⟨i₀, hi, k, hk, rfl⟩, by simp [intrBlock]⟩
  · simpa [intrSize, poseBlk, intrBlk] using hdt
  · have hd : ∀ blk ∈ intrBuild p poses, DerivList (fun u => blk.residual
        (memAlong (fun b => if b = poseBlk i₀ then dt else fun _ => 0) st u)) [0, 0] := by
      intro blk hb
      obtain ⟨j, hj, k, hk, rfl⟩ := mem_intrBuild.1 hb
      simp only [intrBlock_residual]
      have e2 : ∀ u, memAlong (fun b => if b = poseBlk i₀ then dt else fun _ => 0) st u intrBlk = st intrBlk := fun u => by
        funext n
        simp [memAlong, poseBlk, intrBlk]
      simp only [e2]
      by_cases hji : j = i₀
      · subst hji
        have hs := pose_moving (memAlong_straight (fun b => if b = poseBlk j then dt else fun _ => 0) st) (poseBlk j) k.inTarget
          (by rw [memAlong_zero]; exact hpl)
        obtain ⟨x, hx⟩ := hline k hk
        simp only [memAlong_zero, if_true] at hs
        rw [hx, hzero x, ← hx] at hs
        have := projectPoints2_still (st intrBlk).intr9 hs (by simp only [memAlong_zero]; exact hz k hk)
        exact ⟨[_, _], fun _ => rfl, .cons (this.1.sub_const _) (.cons (this.2.sub_const _) .nil)⟩
      · have e1 : ∀ u, memAlong (fun b => if b = poseBlk i₀ then dt else fun _ => 0) st u (poseBlk j) = st (poseBlk j) := fun u => by
          funext n
          simp [memAlong, poseBlk, hji]
        simp only [e1]
        exact ⟨[_, _], fun _ => rfl, .cons (hasDerivAt_const _ _) (.cons (hasDerivAt_const _ _) .nil)⟩
    have := (residuals_deriv hd).speed i
    rw [getD_zero] at this
    · exact this
    · intro e he
      obtain ⟨_, _, he⟩ := List.mem_flatMap.1 he
      simpa using he

/-- A calibration that ends where some motion of the parameters leaves the residuals alone does not return. -/
theorem intrinsic_fails (s3 : Ceres V3) (s : Ceres Mem) (p : IntrinsicProblem)
    (hr : RejectsSingular s (fun (m : Mem) k => m k) intrSize
      fun st => ∀ i < p.observations.length, PlainPose (st (poseBlk i)).pose)
    (hn : 9 + 6 * p.observations.length ≤ 2 * (p.observations.map List.length).sum)
    (hfin : ∀ poses, intrPoses s3 p = .ok poses → ∀ (i : Nat) (obs : List Corr2), p.observations[i]? = some obs →
      PlainPose ((s.solve (intrBuild p poses) (intrInit p poses)) (poseBlk i)).pose ∧
      ∀ k ∈ obs, ((poseCalToEigen ((s.solve (intrBuild p poses) (intrInit p poses)) (poseBlk i)).pose).apply k.inTarget).z ≠ 0)
    (hstill : ∀ poses st, intrPoses s3 p = .ok poses → st = s.solve (intrBuild p poses) (intrInit p poses) →
      validIdx poses = List.range p.observations.length → [] ∉ p.observations →
      (∀ i < p.observations.length, Plain (st (poseBlk i)).pose ∧
        ∀ k ∈ p.observations.getD i [], ((poseCalToEigen (st (poseBlk i)).pose).apply k.inTarget).z ≠ 0) →
      ∃ γ d, γ 0 = st ∧ Straight (fun (m : Mem) k => m k) γ d ∧
        (∃ b ∈ usedBlocks (intrBuild p poses), ∃ k < intrSize b, d b k ≠ 0) ∧ ∀ i, Speed (intrBuild p poses) γ i 0)
    (res : IntrinsicResult) : intrinsic s3 s p ≠ .ok res := by
  intro h
  have hempty : [] ∉ p.observations := fun he => C90_intrinsic s3 s p (Or.inr he) res h
  unfold intrinsic at h
  simp only [Res.bind_ok_iff] at h
  obtain ⟨poses, hp, cov, hc, -⟩ := h
  have hlen : poses.length = p.observations.length := by
    unfold intrPoses at hp
    rw [Res.mapList_ok_iff] at hp
    exact hp.length_eq.symm
  have hfin := hfin poses hp
  obtain ⟨st, hst⟩ : ∃ st, st = s.solve (intrBuild p poses) (intrInit p poses) := ⟨_, rfl⟩
  rw [← hst] at hc hfin
  -- all images are used
  have hvalid : ∀ i < p.observations.length, i ∈ validIdx poses := by
    intro i hi
    have := covSolverF_isSome (computeCovariance_unknown hc (b := poseBlk i)
      (List.mem_cons_of_mem _ (List.mem_map.2 ⟨i, List.mem_range.2 hi, rfl⟩)))
    rw [mem_usedBlocks] at this
    obtain ⟨b, hb, hm⟩ := this
    obtain ⟨j, hj, k, hk, rfl⟩ := mem_intrBuild.1 hb
    simp only [intrBlock, poseBlk, intrBlk, List.mem_cons, List.not_mem_nil, or_false] at hm
    have : i = j := by omega
    exact this ▸ hj
  have hall : validIdx poses = List.range p.observations.length := by
    unfold validIdx
    rw [hlen]
    refine List.filter_eq_self.2 fun i hi => ?_
    have := hvalid i (List.mem_range.1 hi)
    unfold validIdx at this
    simpa using (List.mem_filter.1 this).2
  have hget : ∀ i < p.observations.length, p.observations[i]? = some (p.observations.getD i []) := fun i hi => by
    rw [List.getElem?_eq_getElem hi, List.getD_eq_getElem?_getD, List.getElem?_eq_getElem hi]; rfl
  have hne : ∀ i < p.observations.length, p.observations.getD i [] ≠ [] := fun i hi h0 =>
    hempty (by rw [← h0]; exact List.mem_of_getElem? (hget i hi))
  have hil : 0 < p.observations.length := by
    rcases Nat.eq_zero_or_pos p.observations.length with h0 | h0
    · rw [List.length_eq_zero_iff] at h0
      rw [h0] at hn
      simp at hn
    · exact h0
  have hfin' : ∀ i < p.observations.length, Plain (st (poseBlk i)).pose ∧
      ∀ k ∈ p.observations.getD i [], ((poseCalToEigen (st (poseBlk i)).pose).apply k.inTarget).z ≠ 0 := fun i hi => hfin i _ (hget i hi)
  have hnd : (intrBlk :: (List.range p.observations.length).map poseBlk).Nodup := by
    rw [List.nodup_cons]
    refine ⟨?_, (List.nodup_range).map fun a b h => by simpa [poseBlk] using h⟩
    simp [poseBlk, intrBlk]
  have hperm : (intrBlk :: (List.range p.observations.length).map poseBlk).Perm (usedBlocks (intrBuild p poses)) := by
    rw [List.perm_ext_iff_of_nodup hnd (show (usedBlocks _).Nodup from List.nodup_dedup _)]
    intro a
    constructor
    · exact fun ha => covSolverF_isSome (computeCovariance_unknown hc ha)
    · intro ha
      obtain ⟨blk, hb, hm⟩ := mem_usedBlocks.1 ha
      obtain ⟨j, hj, k, hk, rfl⟩ := mem_intrBuild.1 hb
      rw [hall, List.mem_range] at hj
      simp only [intrBlock, List.mem_cons, List.not_mem_nil, or_false] at hm
      rcases hm with rfl | rfl
      · exact List.mem_cons_of_mem _ (List.mem_map.2 ⟨j, List.mem_range.2 hj, rfl⟩)
      · exact List.mem_cons_self
  refine computeCovariance_rejected (hr _ _ _ hperm (fun i hi => (hfin i _ (hget i hi)).1)
    (intr_singular_of ?_ (fun i hi => ?_) (hvalid 0 hil) (hne 0 hil) (hstill poses st hp hst hall hempty hfin'))) _ hc
  · rw [← (hperm.map intrSize).sum_eq, List.map_cons, List.sum_cons, List.map_map]
    have e1 : ((List.range p.observations.length).map (intrSize ∘ poseBlk)).sum = 6 * p.observations.length := by
      rw [List.map_congr_left (g := fun _ => 6) fun a _ => by simp [intrSize, poseBlk, intrBlk], sum_const_six, List.length_range]
    have e2 : (residuals (intrBuild p poses) st).length = 2 * (p.observations.map List.length).sum := by
      unfold intrBuild
      rw [hall]
      have : ∀ l : List Nat, (∀ i ∈ l, i < p.observations.length) → (residuals (l.flatMap fun i => (p.observations.getD i []).map fun k =>
          (⟨[poseBlk i, intrBlk], evalMem2 (intrinsicCost k.inTarget k.inImage)⟩ : ResBlock Mem)) st).length =
          2 * (l.map fun i => (p.observations.getD i []).length).sum := by
        intro l _
        induction l with
        | nil => rfl
        | cons i l ih =>
          rw [List.flatMap_cons, residuals, List.flatMap_append, List.length_append, List.map_cons, List.sum_cons, Nat.mul_add]
          congr 1
          · have e : ∀ l : List Corr2, (List.flatMap (fun b => ResBlock.residual b st) (l.map fun k =>
                (⟨[poseBlk i, intrBlk], evalMem2 (intrinsicCost k.inTarget k.inImage)⟩ : ResBlock Mem))).length = 2 * l.length := by
              intro l
              induction l with
              | nil => rfl
              | cons k l ih =>
                rw [List.map_cons, List.flatMap_cons, List.length_append, ih, List.length_cons]
                have : (ResBlock.residual (⟨[poseBlk i, intrBlk], evalMem2 (intrinsicCost k.inTarget k.inImage)⟩ : ResBlock Mem) st).length = 2 := rfl
                omega
            exact e _
          · exact ih fun j hj => by simp_all
      rw [this _ fun i hi => List.mem_range.1 hi]
      congr 2
      apply List.ext_getElem
      · simp
      · intro n h1 h2
        simp at h1 h2 ⊢
        simp [h2]
    rw [e1, e2]
    exact hn
  · have hi' : i < p.observations.length := by rwa [hall, List.mem_range] at hi
    exact hfin i _ (hget i hi')

/-- An intrinsic calibration with an image whose features lie on one line of the target does not return. -/
theorem C197_line (s3 : Ceres V3) (s : Ceres Mem) (p : IntrinsicProblem)
    (hr : RejectsSingular s (fun (m : Mem) k => m k) intrSize
      fun st => ∀ i < p.observations.length, PlainPose (st (poseBlk i)).pose)
    (hn : 9 + 6 * p.observations.length ≤ 2 * (p.observations.map List.length).sum)
    (hfin : ∀ poses, intrPoses s3 p = .ok poses → ∀ (i : Nat) (obs : List Corr2), p.observations[i]? = some obs →
      PlainPose ((s.solve (intrBuild p poses) (intrInit p poses)) (poseBlk i)).pose ∧
      ∀ k ∈ obs, ((poseCalToEigen ((s.solve (intrBuild p poses) (intrInit p poses)) (poseBlk i)).pose).apply k.inTarget).z ≠ 0)
    (obs : List Corr2) (ho : obs ∈ p.observations) (q₀ b : V3) (hline : ∀ k ∈ obs, ∃ x : ℝ, k.inTarget = q₀ + V3.smul x b)
    (res : IntrinsicResult) : intrinsic s3 s p ≠ .ok res := by
  refine intrinsic_fails s3 s p hr hn hfin (fun poses st hp hst hall hempty hfin => ?_) res
  obtain ⟨i₀, hi₀⟩ := List.mem_iff_getElem?.1 ho
  have hil : i₀ < p.observations.length := (List.getElem?_eq_some_iff.1 hi₀).1
  have hobs : p.observations.getD i₀ [] = obs := by rw [List.getD_eq_getElem?_getD, hi₀]; rfl
  exact intr_line_still (by rw [hall]; exact List.mem_range.2 hil) (by rw [hobs]; rintro rfl; exact hempty ho)
    (hfin i₀ hil).1 (hfin i₀ hil).2 q₀ b (by rw [hobs]; exact hline)

/-! ## Concrete case -/

/-- The first guess of the pose of the target: half a metre in front of the camera, facing it. -/
theorem guessInitialPose_facts :
    Representable (poseCalToEigen guessInitialPose) ∧ ∀ q : V3, q.z = 0 → ((poseCalToEigen guessInitialPose).apply q).z = 1 / 2 := by
  rw [guessInitialPose_eq]
  refine ⟨facingPose_rep, fun q hq => ?_⟩
  simp [facingPose, Iso.apply, M3.mulVec, hq]

/-- A solver for the intrinsics that reports singular Jacobians. -/
noncomputable def intrRank (n : Nat) : Ceres Mem :=
  rankCeres (fun (m : Mem) k => m k) intrSize fun st => ∀ i < n, PlainPose (st (poseBlk i)).pose

/-- For flat targets the start of the search has all features at depth 1/2. -/
theorem intrRank_flat {p : IntrinsicProblem} (hflat : ∀ obs ∈ p.observations, obs ≠ [] ∧ ∀ k ∈ obs, k.inTarget.z = 0)
    {poses : List (Option Pose6)} (hposes : intrPoses (idCeres V3) p = .ok poses) {i : Nat} {obs : List Corr2}
    (ho : p.observations[i]? = some obs) :
    PlainPose ((intrRank p.observations.length).solve (intrBuild p poses) (intrInit p poses) (poseBlk i)).pose ∧
    ∀ k ∈ obs, ((poseCalToEigen ((intrRank p.observations.length).solve (intrBuild p poses) (intrInit p poses) (poseBlk i)).pose).apply
      k.inTarget).z = 1 / 2 := by
  obtain ⟨hne, hz⟩ := hflat obs (List.mem_of_getElem? ho)
  have hlen := (C43_partial _ _ _ hposes).1
  have hil : i < p.observations.length := (List.getElem?_eq_some_iff.1 ho).1
  unfold intrPoses at hposes
  rw [Res.mapList_ok_iff] at hposes
  have := hposes.get hil (by omega)
  simp only [List.get_eq_getElem, (List.getElem?_eq_some_iff.1 ho).2] at this
  obtain ⟨q, hq⟩ : ∃ q, intrSolvePnP (idCeres V3) p.guess obs guessInitialPose = .ok q ∧ q = poseEigenToCal (poseCalToEigen guessInitialPose) := by
    obtain ⟨P, hP⟩ : ∃ P : PnPProblem Corr2, P = ⟨p.guess, obs, poseCalToEigen guessInitialPose, "camera_to_target"⟩ := ⟨_, rfl⟩
    obtain ⟨r, hr⟩ := pnp2_id_returns P (by rw [hP]; exact hne)
    have hc : r.converged = true := by
      have h' := hr
      unfold pnp2 pnpFinish at h'
      simp only [Res.bind_ok_iff] at h'
      obtain ⟨cov, -, h'⟩ := h'
      cases h'; rfl
    have hg := C34_pnp _ P r (fun _ _ => rfl) (by rw [hP]; exact guessInitialPose_facts.1.1) hr
    rw [hP] at hg hr
    refine ⟨_, ?_, rfl⟩
    unfold intrSolvePnP
    rw [hr, Res.ok_bind, if_pos hc, hg]
  rw [hq.1, hq.2] at this
  simp only [Res.ok.injEq] at this
  have e : ((intrRank p.observations.length).solve (intrBuild p poses) (intrInit p poses) (poseBlk i)).pose =
      poseEigenToCal (poseCalToEigen guessInitialPose) := by
    show (intrInit p poses (poseBlk i)).pose = _
    unfold intrInit
    rw [if_neg (by simp [poseBlk, intrBlk])]
    have : poses.getD (poseBlk i - 1) none = some (poseEigenToCal (poseCalToEigen guessInitialPose)) := by
      rw [show poseBlk i - 1 = i from rfl, List.getD_eq_getElem?_getD, List.getElem?_eq_getElem (by omega), ← this]
      rfl
    rw [this]
    rfl
  rw [e]
  refine ⟨guessInitialPose_facts.1.plain, fun k hk => ?_⟩
  rw [guessInitialPose_facts.1.roundtrip, guessInitialPose_facts.2 _ (hz k hk)]

/-- `C197_line`: two images, one of them with a row of features only. -/
example : ∃ p : IntrinsicProblem, (∀ res, intrinsic (idCeres V3) (intrRank p.observations.length) p ≠ .ok res) ∧
    p.observations.length = 2 ∧ ∃ obs ∈ p.observations, ∃ a ∈ obs, ∃ b ∈ obs, ∃ c ∈ obs, Triangle3 a.inTarget b.inTarget c.inTarget := by
  obtain ⟨p, hp⟩ : ∃ p : IntrinsicProblem, p = ⟨[(rowObs2 1).corrs, [⟨⟨0, 0⟩, ⟨0, 0, 0⟩⟩, ⟨⟨1, 0⟩, ⟨1, 0, 0⟩⟩, ⟨⟨1, 1⟩, ⟨1, 1, 0⟩⟩,
    ⟨⟨0, 1⟩, ⟨0, 1, 0⟩⟩, ⟨⟨2, 0⟩, ⟨2, 0, 0⟩⟩, ⟨⟨0, 2⟩, ⟨0, 2, 0⟩⟩]], ⟨1, 1, 0, 0⟩, "pose"⟩ := ⟨_, rfl⟩
  have hflat : ∀ obs ∈ p.observations, obs ≠ [] ∧ ∀ k ∈ obs, k.inTarget.z = 0 := by
    intro obs ho
    rw [hp] at ho
    simp only [List.mem_cons, List.not_mem_nil, or_false] at ho
    rcases ho with rfl | rfl
    · refine ⟨by simp [rowObs2, rowPoints], fun k hk => ?_⟩
      simp only [rowObs2, rowPoints, List.map_cons, List.map_nil, List.mem_cons, List.not_mem_nil, or_false] at hk
      rcases hk with rfl | rfl | rfl | rfl | rfl | rfl <;> rfl
    · refine ⟨by simp, fun k hk => ?_⟩
      simp only [List.mem_cons, List.not_mem_nil, or_false] at hk
      rcases hk with rfl | rfl | rfl | rfl | rfl | rfl <;> rfl
  refine ⟨p, fun res => ?_, by rw [hp]; rfl, ?_⟩
  · refine C197_line (idCeres V3) (intrRank p.observations.length) p (rankCeres_rejects _ _ _) (by rw [hp]; decide) ?_ (rowObs2 1).corrs
      (by rw [hp]; simp) ⟨0, 0, 0⟩ ⟨1, 0, 0⟩ (fun k hk => ?_) res
    · intro poses hposes i obs ho
      obtain ⟨h1, h2⟩ := intrRank_flat hflat hposes ho
      exact ⟨h1, fun k hk => by rw [h2 k hk]; norm_num⟩
    · obtain ⟨q, hq, hqk⟩ := List.mem_map.1 hk
      rw [← hqk]
      exact rowPoints_line hq
  · rw [hp]
    exact ⟨_, List.mem_cons_of_mem _ List.mem_cons_self, ⟨⟨0, 0⟩, ⟨0, 0, 0⟩⟩, by simp, ⟨⟨1, 0⟩, ⟨1, 0, 0⟩⟩, by simp, ⟨⟨1, 1⟩, ⟨1, 1, 0⟩⟩,
      by simp, square_quadrangle.abc⟩

end RCT
