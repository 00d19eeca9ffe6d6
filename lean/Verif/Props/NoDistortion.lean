import Verif.Lemmas.Lens
import Verif.Spec.Lens
import Verif.Props.IdentifyIntrinsic
import Verif.Props.SingleEnds

/-!
# C213: a large target rules out distortion that is not there
-/

namespace RCT
open Spec

/-- An exact result explains the images. -/
theorem intrinsic_lens {s3 : Ceres V3} {s : Ceres Mem} {p : IntrinsicProblem} {res : IntrinsicResult}
    (h : intrinsic s3 s p = .ok res) (hcost : res.finalCost = some 0) :
    ∃ k1 k2 p1 p2 k3 poses, res.distortions = [k1, k2, p1, p2, k3] ∧ intrPoses s3 p = .ok poses ∧ ∀ T' : Nat → Iso,
      (∀ i, T' i = poseCalToEigen (s.solve (intrBuild p poses) (intrInit p poses) (poseBlk i)).pose) →
      (∀ i, i < p.observations.length → ∀ k ∈ p.observations.getD i [], ((T' i).apply k.inTarget).z ≠ 0) →
      LensImages res.intrinsics k1 k2 p1 p2 k3 T' p.observations := by
  obtain ⟨k1, k2, p1, p2, k3, poses, hd, hp, hres⟩ := C89_residuals s3 s p res h
  refine ⟨k1, k2, p1, p2, k3, poses, hd, hp, fun T' hT' hz => ?_⟩
  obtain ⟨poses', hp', -, hfin, -⟩ := intrinsic_ok h
  rw [hp] at hp'
  cases hp'
  have hr := hres T' hT' fun f hf => by
    obtain ⟨h1, h2⟩ := (intrinsic_features h hp f).1 hf
    exact hz f.1 h1 f.2 h2
  rw [hfin, costPerObs_eq_meanCost, meanCost_eq_zero_iff, hr, flatMap_zero] at hcost
  intro i hi k hk
  exact ⟨hz i hi k hk, (diff2_zero.1 (hcost.2 (i, k) ((intrinsic_features h hp (i, k)).2 ⟨hi, hk⟩))).symm⟩

/-- Perfect images, without lens distortion, of a plane target; one of them shows a grid of nine by nine features, and the camera is
not in the plane of the target there. Every run that ends with cost zero reports that there is no distortion. -/
theorem C213_none (s3 : Ceres V3) (s : Ceres Mem) (p : IntrinsicProblem) (res : IntrinsicResult)
    (h : intrinsic s3 s p = .ok res) (intr : Intr) (hx : intr.fx ≠ 0) (hy : intr.fy ≠ 0) (T : Nat → Iso)
    (hT : ∀ i, i < p.observations.length → RigidMotion (T i)) (hdata : PerfectImages intr T p.observations)
    (i : Nat) (hi : i < p.observations.length) (hgrid : SeesGrid 9 (p.observations.getD i [])) (hcam : (T i).inv.t.z ≠ 0)
    (hcost : res.finalCost = some 0) :
    ∃ poses, intrPoses s3 p = .ok poses ∧ ∀ T' : Nat → Iso,
      (∀ i, T' i = poseCalToEigen (s.solve (intrBuild p poses) (intrInit p poses) (poseBlk i)).pose) →
      (∀ i, i < p.observations.length → RigidMotion (T' i)) →
      (∀ i, i < p.observations.length → ∀ k ∈ p.observations.getD i [], ((T' i).apply k.inTarget).z ≠ 0) →
      res.distortions = [0, 0, 0, 0, 0] := by
  obtain ⟨k1, k2, p1, p2, k3, poses, hd, hp, hlens⟩ := intrinsic_lens h hcost
  refine ⟨poses, hp, fun T' hT' hrig hz => ?_⟩
  obtain ⟨as, bs, ha, hb, hk⟩ := hgrid
  obtain ⟨rfl, rfl, rfl, rfl, rfl⟩ := no_distortion (i := intr) (i' := res.intrinsics) (k1 := k1) (k2 := k2) (p1 := p1) (p2 := p2) (k3 := k3)
    ((rigid_iff _).2 (hT i hi)) ((rigid_iff _).2 (hrig i hi)) hx hy hcam ha hb (by
      intro a ha' b hb'
      obtain ⟨k, hk1, hk2⟩ := hk a ha' b hb'
      obtain ⟨e1, e2⟩ := hdata i hi k hk1
      obtain ⟨e3, e4⟩ := hlens T' hT' hz i hi k hk1
      rw [hk2] at e1 e2 e3 e4
      exact ⟨e1, e3, e4.symm.trans e2⟩)
  exact hd

/-- If besides some of the images show four features, no three on one line, on planes of not too few directions, then every run that ends
with cost zero reports the true centre and, up to sign, the true focal lengths: that it reports no distortion need not be asked for. -/
theorem C213_camera (s3 : Ceres V3) (s : Ceres Mem) (p : IntrinsicProblem) (res : IntrinsicResult)
    (h : intrinsic s3 s p = .ok res) (intr : Intr) (hx : intr.fx ≠ 0) (hy : intr.fy ≠ 0) (T : Nat → Iso)
    (hT : ∀ i, i < p.observations.length → RigidMotion (T i)) (hdata : PerfectImages intr T p.observations)
    (i : Nat) (hi : i < p.observations.length) (hgrid : SeesGrid 9 (p.observations.getD i [])) (hcam : (T i).inv.t.z ≠ 0)
    (good : List Nat) (hgood : ∀ i ∈ good, i < p.observations.length ∧ SeesQuadrangle (p.observations.getD i []) ∧ (T i).inv.t.z ≠ 0)
    (hfew : ¬ FewDirections (good.map fun i => Spec.planeNormal (T i))) (hcost : res.finalCost = some 0) :
    ∃ poses, intrPoses s3 p = .ok poses ∧ ∀ T' : Nat → Iso,
      (∀ i, T' i = poseCalToEigen (s.solve (intrBuild p poses) (intrInit p poses) (poseBlk i)).pose) →
      (∀ i, i < p.observations.length → RigidMotion (T' i)) →
      (∀ i, i < p.observations.length → ∀ k ∈ p.observations.getD i [], ((T' i).apply k.inTarget).z ≠ 0) →
      res.distortions = [0, 0, 0, 0, 0] ∧ SameCamera res.intrinsics intr := by
  obtain ⟨poses, hp, hnone⟩ := C213_none s3 s p res h intr hx hy T hT hdata i hi hgrid hcam hcost
  refine ⟨poses, hp, fun T' hT' hrig hz => ?_⟩
  have hdist := hnone T' hT' hrig hz
  obtain ⟨poses', hp', hsame⟩ := C181_unique s3 s p res h intr hx hy T hT hdata good hgood hfew hdist hcost
  rw [hp] at hp'
  cases hp'
  exact ⟨hdist, hsame T' hT' hrig hz⟩

/-- A grid has four points no three of which are on one line. -/
theorem Spec.SeesGrid.quadrangle {n : ℕ} (hn : 2 ≤ n) {cs : List Corr2} (h : SeesGrid n cs) : SeesQuadrangle cs := by
  obtain ⟨as, bs, ha, hb, hk⟩ := h
  obtain ⟨a, ha1, a', ha2, haa⟩ := Finset.one_lt_card.1 (by omega : 1 < as.card)
  obtain ⟨b, hb1, b', hb2, hbb⟩ := Finset.one_lt_card.1 (by omega : 1 < bs.card)
  obtain ⟨k1, m1, e1⟩ := hk a ha1 b hb1
  obtain ⟨k2, m2, e2⟩ := hk a' ha2 b hb1
  obtain ⟨k3, m3, e3⟩ := hk a' ha2 b' hb2
  obtain ⟨k4, m4, e4⟩ := hk a ha1 b' hb2
  refine ⟨k1, m1, k2, m2, k3, m3, k4, m4, ?_⟩
  rw [e1, e2, e3, e4]
  have h1 : a - a' ≠ 0 := sub_ne_zero.2 haa
  have h2 : b - b' ≠ 0 := sub_ne_zero.2 hbb
  have h3 := mul_ne_zero h1 h2
  refine ⟨rfl, rfl, rfl, rfl, ?_, ?_, ?_, ?_⟩ <;> rw [triangle3_iff] <;> intro h <;> have := congrArg V3.z h <;>
    simp only [V3.cross, V3.sub_x, V3.sub_y, V3.zero_z] at this <;> apply h3 <;> linarith

/-- The tool for intrinsic calibration: perfect images without lens distortion, one of which shows a grid of nine by nine features, in not too
few directions. If the tool prints the error zero, it prints no distortion, the true centre and, up to sign, the true focal lengths. -/
theorem C213_tool {Img : Type} (W : ToolWorld Img) (hp : ProperParams W.param) (cv : CvCalibrate Img) (s3 : Ceres V3) (s : Ceres Mem)
    (rep : IntrinsicReport) (h : intrinsicMain W cv s3 s = .ok (some rep)) (cam : Intr) (hx : cam.fx ≠ 0) (hy : cam.fy ≠ 0)
    (d : DataSet Img) (hd : DataParam W (W.param "data_path") d) (F : Finder Img) (hF : FinderParam W F)
    (T : Nat → Iso) (himg : ∀ i cs, IntrinsicItem (plainEnv F) d.images i cs → RigidMotion (T i) ∧
      ∀ k ∈ cs, ((T i).apply k.inTarget).z ≠ 0 ∧ k.inImage = pinhole cam ((T i).apply k.inTarget))
    (big : Nat) (hbig : ∃ cs, IntrinsicItem (plainEnv F) d.images big cs ∧ SeesGrid 9 cs ∧ (T big).inv.t.z ≠ 0)
    (good : List Nat) (hgood : ∀ i ∈ good, ∃ cs, IntrinsicItem (plainEnv F) d.images i cs ∧ SeesQuadrangle cs ∧ (T i).inv.t.z ≠ 0)
    (hfew : ¬ FewDirections (good.map fun i => Spec.planeNormal (T i))) (hcost : rep.opt.final = some 0) :
    ∃ js obs intr poses, SelectedAt d.images.length (IntrinsicItem (plainEnv F) d.images) js obs ∧
      intrPoses s3 { observations := obs, guess := intr } = .ok poses ∧ ∀ T' : Nat → Iso,
      (∀ i, T' i = poseCalToEigen (s.solve (intrBuild { observations := obs, guess := intr } poses)
        (intrInit { observations := obs, guess := intr } poses) (poseBlk i)).pose) →
      (∀ i, i < obs.length → RigidMotion (T' i)) →
      (∀ i, i < obs.length → ∀ k ∈ obs.getD i [], ((T' i).apply k.inTarget).z ≠ 0) →
      rep.distortions = [0, 0, 0, 0, 0] ∧ SameCamera rep.intrinsics cam := by
  obtain ⟨d', F', intr, js, obs, r, front, K, dist, hset, hsel, hr, hrep, -⟩ := C190_intrinsic W hp cv s3 s rep h
  obtain rfl : d' = d := by
    obtain ⟨p1, a1, a2⟩ := hset.data
    obtain ⟨p2, b1, b2⟩ := hd
    rw [a1] at b1; cases b1
    rw [a2] at b2; cases b2; rfl
  obtain rfl : F' = F := Res.ok.inj (((loadFinder_ok_iff W F').2 hset.finder).symm.trans ((loadFinder_ok_iff W F).2 hF))
  have hlen := hsel.2.2.length_eq
  have hat : ∀ n, n < obs.length → IntrinsicItem (plainEnv F') d'.images (js.getD n 0) (obs.getD n []) := by
    intro n hn
    have := hsel.2.2.get (by omega : n < js.length) hn
    simpa [List.getD_eq_getElem?_getD, List.getElem?_eq_getElem hn, List.getElem?_eq_getElem (by omega : n < js.length)] using this
  have hidx : ∀ i cs, IntrinsicItem (plainEnv F') d'.images i cs →
      js.idxOf i < obs.length ∧ js.getD (js.idxOf i) 0 = i ∧ obs.getD (js.idxOf i) [] = cs := by
    intro i cs hcs
    have hmem : i ∈ js := by
      obtain ⟨m, fs, him, -⟩ := id hcs
      exact (hsel.2.1 i).2 ⟨(List.getElem?_eq_some_iff.1 him).1, cs, hcs⟩
    have hlt := List.idxOf_lt_length_iff.2 hmem
    have h2 : js.getD (js.idxOf i) 0 = i := by
      rw [List.getD_eq_getElem?_getD, List.getElem?_eq_getElem hlt]
      simp
    have h1 : js.idxOf i < obs.length := by omega
    refine ⟨h1, h2, ?_⟩
    have := hat _ h1
    rw [h2] at this
    obtain ⟨m, fs, a1, a2, a3, a4⟩ := hcs
    obtain ⟨m', fs', b1, b2, b3, b4⟩ := this
    rw [a1] at b1; cases b1
    rw [a2] at b2; cases b2
    rw [a4] at b4
    exact (Res.ok.inj b4).symm
  obtain ⟨csb, hcsb, hgrid, hcam⟩ := hbig
  obtain ⟨hb1, hb2, hb3⟩ := hidx big csb hcsb
  obtain ⟨poses, hposes, hfin⟩ := C213_camera s3 s _ r hr cam hx hy (fun n => T (js.getD n 0)) (fun n hn => (himg _ _ (hat n hn)).1)
    (fun n hn k hk => (himg _ _ (hat n hn)).2 k hk) (js.idxOf big) hb1 (by simp only [hb3]; exact hgrid) (by simp only [hb2]; exact hcam)
    (good.map fun i => js.idxOf i) (by
      intro n hn
      obtain ⟨i, hi, rfl⟩ := List.mem_map.1 hn
      obtain ⟨cs, hcs, hq, hz⟩ := hgood i hi
      obtain ⟨h1, h2, h3⟩ := hidx i cs hcs
      exact ⟨h1, by rw [h3]; exact hq, by rw [h2]; exact hz⟩) (by
      rw [List.map_map]
      convert hfew using 2
      refine List.map_congr_left fun i hi => ?_
      obtain ⟨cs, hcs, -⟩ := hgood i hi
      simp only [Function.comp]; rw [(hidx i cs hcs).2.1]) (by
      rw [hrep.final] at hcost
      obtain ⟨poses, -, -, h2, -⟩ := intrinsic_ok hr
      rw [h2] at hcost ⊢
      exact (sqrt_cost_zero _ _).1 hcost)
  exact ⟨js, obs, intr, poses, hsel, hposes, fun T' h1 h2 h3 => by rw [hrep.intrinsics, hrep.distortions]; exact hfin T' h1 h2 h3⟩

/-! ## Small targets -/

/-- The memory of a camera with distortion. -/
def Intr.lensMem (i : Intr) (k1 k2 p1 p2 k3 : ℝ) : Mem := fun o =>
  match o with
  | 0 => i.fx | 1 => i.fy | 2 => i.cx | 3 => i.cy | 4 => k1 | 5 => k2 | 6 => p1 | 7 => p2 | 8 => k3 | _ => 0

/-- Every camera, distortion and target poses that explain the images can be the end of an intrinsic calibration. -/
theorem intrinsic_lens_reached {s3 : Ceres V3} {s : Ceres Mem} (hs : s.WF) {p : IntrinsicProblem} {res : IntrinsicResult}
    (h : intrinsic s3 s p = .ok res) {intr : Intr} {k1 k2 p1 p2 k3 : ℝ} {T : Nat → Iso}
    (hT : ∀ i, i < p.observations.length → RigidMotion (T i)) (hdata : LensImages intr k1 k2 p1 p2 k3 T p.observations) :
    ∃ (s' : Ceres Mem) (res' : IntrinsicResult) (poses : List (Option Pose6)), s'.WF ∧ intrinsic s3 s' p = .ok res' ∧
      intrPoses s3 p = .ok poses ∧ res'.finalCost = some 0 ∧ res'.distortions = [k1, k2, p1, p2, k3] ∧ res'.intrinsics = intr ∧
      ∀ i, i < p.observations.length → poseCalToEigen (s'.solve (intrBuild p poses) (intrInit p poses) (poseBlk i)).pose = T i := by
  classical
  obtain ⟨poses, hp, -⟩ := intrinsic_ok h
  have hposes : ∀ i, ∃ q : Pose6, i < p.observations.length → poseCalToEigen q = T i := by
    intro i
    by_cases hi : i < p.observations.length
    · obtain ⟨q, hq⟩ := exists_pose6 ((rigid_iff _).2 (hT i hi))
      exact ⟨q, fun _ => hq⟩
    · exact ⟨⟨0, 0, 0, 0, 0, 0⟩, fun h => absurd h hi⟩
  choose q hq using hposes
  have hne : p.observations ≠ [] := fun h0 => C90_intrinsic s3 s p (Or.inl h0) res h
  have hempty : [] ∉ p.observations := fun h0 => C90_intrinsic s3 s p (Or.inr h0) res h
  have hlen : 0 < p.observations.length := List.length_pos_iff.2 hne
  have hfeat : ∀ i, i < p.observations.length → ∃ k, (i, k) ∈ usableFeatures p.observations (validIdx poses) := by
    intro i hi
    have hget : p.observations.getD i [] = p.observations[i] := by simp [hi]
    have hn : p.observations[i] ≠ [] := fun h0 => hempty (by rw [← h0]; simp)
    obtain ⟨k, l, hkl⟩ := List.exists_cons_of_ne_nil hn
    exact ⟨k, (intrinsic_features h hp (i, k)).2 ⟨hi, by simp only [hget, hkl]; simp⟩⟩
  let st' : Nat → Mem := fun a => if a ∈ usedBlocks (intrBuild p poses) then
    (if a = intrBlk then intr.lensMem k1 k2 p1 p2 k3 else (q (a - 1)).mem) else intrInit p poses a
  have hused : ∀ i k, (i, k) ∈ usableFeatures p.observations (validIdx poses) →
      poseBlk i ∈ usedBlocks (intrBuild p poses) ∧ intrBlk ∈ usedBlocks (intrBuild p poses) := by
    intro i k hk
    have hm : (⟨[poseBlk i, intrBlk], evalMem2 (intrinsicCost k.inTarget k.inImage)⟩ : ResBlock Mem) ∈ intrBuild p poses := by
      rw [intrBuild_eq]
      exact List.mem_map.2 ⟨(i, k), hk, rfl⟩
    exact ⟨mem_usedBlocks.2 ⟨_, hm, by simp⟩, mem_usedBlocks.2 ⟨_, hm, by simp⟩⟩
  have hpb : ∀ i, i < p.observations.length → st' (poseBlk i) = (q i).mem := by
    intro i hi
    obtain ⟨k, hk⟩ := hfeat i hi
    have h1 := (hused i k hk).1
    simp only [st', if_pos h1]
    rw [if_neg (by simp [poseBlk, intrBlk])]
    rfl
  have hib : st' intrBlk = intr.lensMem k1 k2 p1 p2 k3 := by
    obtain ⟨k, hk⟩ := hfeat 0 hlen
    have h1 := (hused 0 k hk).2
    simp only [st', if_pos h1, if_true]
  have hzero : ∀ e ∈ residuals (intrBuild p poses) st', e = 0 := by
    rw [intrBuild_eq, residuals_map, flatMap_zero]
    intro f hf
    obtain ⟨h1, h2⟩ := (intrinsic_features h hp f).1 hf
    obtain ⟨hz, him⟩ := hdata f.1 h1 f.2 h2
    simp only [ResBlock.residual, List.map_cons, List.map_nil, evalMem2, intrinsicCost, hpb f.1 h1, hib, transformPoint_eq]
    have e1 : poseCalToEigen (Mem.pose (q f.1).mem) = T f.1 := hq f.1 h1
    have e2 : Mem.intr9 (intr.lensMem k1 k2 p1 p2 k3) = ⟨intr.fx, intr.fy, intr.cx, intr.cy, k1, k2, p1, p2, k3⟩ := rfl
    rw [e1, e2, C42_brown _ _ hz, him]
    simp
  obtain ⟨s', res', w1, w2, w3, w4, w5, w6⟩ := intrinsic_other hs h hp (st' := st')
    (fun a ha => by simp only [st', if_neg ha]) (by rw [cost_zero hzero]; exact cost_nonneg _ _)
  refine ⟨s', res', poses, w1, w2, hp, ?_, ?_, ?_, ?_⟩
  · rw [w4, costPerObs_eq_meanCost, meanCost_eq_zero_iff]
    refine ⟨?_, hzero⟩
    obtain ⟨k, hk⟩ := hfeat 0 hlen
    rw [intrBuild_eq, residuals_map]
    intro h0
    rw [List.flatMap_eq_nil_iff] at h0
    have := h0 _ hk
    simp [ResBlock.residual, evalMem2, intrinsicCost] at this
  · rw [w6, hib]; rfl
  · rw [w5, hib]; rfl
  · intro i hi
    rw [w3, hpb i hi]
    exact hq i hi

/-- Why the target must be large: if in all images all features have one distance `r` from the optical axis at depth one, then for all radial
coefficients with `1 + k1 r² + k2 r⁴ + k3 r⁶ ≠ 0`, there are runs that end with cost zero and report this distortion, with focal lengths that make
up for it, at the true poses; however many directions the targets have. -/
theorem C213_circle (s3 : Ceres V3) (s : Ceres Mem) (hs : s.WF) (p : IntrinsicProblem) (res : IntrinsicResult)
    (h : intrinsic s3 s p = .ok res) (intr : Intr) (T : Nat → Iso)
    (hT : ∀ i, i < p.observations.length → RigidMotion (T i)) (hdata : PerfectImages intr T p.observations) (r : ℝ)
    (hr : ∀ i, i < p.observations.length → ∀ k ∈ p.observations.getD i [],
      ((T i).apply k.inTarget).x ^ 2 + ((T i).apply k.inTarget).y ^ 2 = r ^ 2 * ((T i).apply k.inTarget).z ^ 2)
    (k1 k2 k3 : ℝ) (hk : 1 + k1 * r ^ 2 + k2 * r ^ 4 + k3 * r ^ 6 ≠ 0) :
    ∃ (s' : Ceres Mem) (res' : IntrinsicResult), s'.WF ∧ intrinsic s3 s' p = .ok res' ∧ res'.finalCost = some 0 ∧
      res'.distortions = [k1, k2, 0, 0, k3] ∧ res'.intrinsics.fx * (1 + k1 * r ^ 2 + k2 * r ^ 4 + k3 * r ^ 6) = intr.fx ∧
      res'.intrinsics.fy * (1 + k1 * r ^ 2 + k2 * r ^ 4 + k3 * r ^ 6) = intr.fy := by
  obtain ⟨D, hD⟩ : ∃ D, D = 1 + k1 * r ^ 2 + k2 * r ^ 4 + k3 * r ^ 6 := ⟨_, rfl⟩
  rw [← hD] at hk ⊢
  obtain ⟨s', res', poses, w1, w2, -, w3, w4, w5, -⟩ := intrinsic_lens_reached hs h
    (intr := ⟨intr.fx / D, intr.fy / D, intr.cx, intr.cy⟩) (k1 := k1) (k2 := k2) (p1 := 0) (p2 := 0) (k3 := k3) hT (by
      intro i hi k hk'
      obtain ⟨hz, him⟩ := hdata i hi k hk'
      refine ⟨hz, ?_⟩
      have hR := hr i hi k hk'
      rw [him]
      obtain ⟨P, hP⟩ : ∃ P, P = (T i).apply k.inTarget := ⟨_, rfl⟩
      rw [← hP] at hz hR ⊢
      have hq : (P.x / P.z) ^ 2 + (P.y / P.z) ^ 2 = r ^ 2 := by
        rw [div_pow, div_pow, ← add_div, hR]; field_simp
      have e : Real.sqrt ((P.x / P.z) ^ 2 + (P.y / P.z) ^ 2) ^ 2 = r ^ 2 := by rw [Real.sq_sqrt (by positivity), hq]
      have e4 : Real.sqrt ((P.x / P.z) ^ 2 + (P.y / P.z) ^ 2) ^ 4 = r ^ 4 := by linear_combination (Real.sqrt ((P.x / P.z) ^ 2 + (P.y / P.z) ^ 2) ^ 2 + r ^ 2) * e
      have e6 : Real.sqrt ((P.x / P.z) ^ 2 + (P.y / P.z) ^ 2) ^ 6 = r ^ 6 := by linear_combination Real.sqrt ((P.x / P.z) ^ 2 + (P.y / P.z) ^ 2) ^ 2 * e4 + r ^ 4 * e
      simp only [brown, pinhole, e, e4, e6, ← hD]
      ext <;> simp only <;> field_simp <;> ring)
  refine ⟨s', res', w1, w2, w3, w4, ?_, ?_⟩
  · rw [w5]; field_simp
  · rw [w5]; field_simp

/-! ### Examples -/

/-- Points of a grid of nine by nine. -/
noncomputable def gridPoints : List V3 :=
  (List.range 9).flatMap fun i : ℕ => (List.range 9).map fun j : ℕ => ⟨(i : ℝ) / 8, (j : ℝ) / 8, 0⟩

/-- A perfect image of the grid. -/
noncomputable def gridImage (i : Intr) (T : Iso) : List Corr2 := gridPoints.map fun q => ⟨pinhole i (T.apply q), q⟩

theorem gridPoints_mem {q : V3} (h : q ∈ gridPoints) : 0 ≤ q.x ∧ q.x ≤ 1 ∧ 0 ≤ q.y ∧ q.y ≤ 1 ∧ q.z = 0 := by
  simp only [gridPoints, List.mem_flatMap, List.mem_range, List.mem_map] at h
  obtain ⟨i, hi, j, hj, rfl⟩ := h
  have h1 : (i : ℝ) ≤ 8 := by exact_mod_cast Nat.lt_succ_iff.1 hi
  have h2 : (j : ℝ) ≤ 8 := by exact_mod_cast Nat.lt_succ_iff.1 hj
  refine ⟨by positivity, by simp only; linarith, by positivity, by simp only; linarith, rfl⟩

theorem gridImage_sees (i : Intr) (T : Iso) : SeesGrid 9 (gridImage i T) := by
  have hinj : Function.Injective fun n : ℕ => (n : ℝ) / 8 := by
    intro a b h
    simp only at h
    have : (a : ℝ) = b := by linarith
    exact_mod_cast this
  refine ⟨(Finset.range 9).image fun n : ℕ => (n : ℝ) / 8, (Finset.range 9).image fun n : ℕ => (n : ℝ) / 8, ?_, ?_, ?_⟩
  · rw [Finset.card_image_of_injective _ hinj]; simp
  · rw [Finset.card_image_of_injective _ hinj]; simp
  · intro a ha b hb
    obtain ⟨m, hm, rfl⟩ := Finset.mem_image.1 ha
    obtain ⟨n, hn, rfl⟩ := Finset.mem_image.1 hb
    rw [Finset.mem_range] at hm hn
    refine ⟨_, List.mem_map.2 ⟨⟨(m : ℝ) / 8, (n : ℝ) / 8, 0⟩, ?_, rfl⟩, rfl⟩
    simp only [gridPoints, List.mem_flatMap, List.mem_range, List.mem_map]
    exact ⟨m, hm, n, hn, rfl⟩

theorem gridImage_perfect (i : Nat) : ∀ k ∈ gridImage ⟨2, 3, 4, 5⟩ (tilted i), ((tilted i).apply k.inTarget).z ≠ 0 ∧
    k.inImage = pinhole ⟨2, 3, 4, 5⟩ ((tilted i).apply k.inTarget) := by
  intro k hk
  obtain ⟨q, hq, rfl⟩ := List.mem_map.1 hk
  refine ⟨?_, rfl⟩
  obtain ⟨h1, h2, h3, h4, h5⟩ := gridPoints_mem hq
  rcases i with _ | _ | i <;> simp only [tilted, Iso.apply, M3.mulVec, M3.one_def, V3.add_z, h5] <;> apply ne_of_gt <;> linarith

theorem gridImage_ne (i : Intr) (T : Iso) : gridImage i T ≠ [] := by
  obtain ⟨k, hk, -⟩ := (gridImage_sees i T).quadrangle (by norm_num)
  exact List.ne_nil_of_mem hk

/-- A run of the tool on three perfect images of a grid that meets the hypotheses of `C213_tool`. -/
example : ∃ (W : ToolWorld Nat) (s : Ceres Mem) (rep : IntrinsicReport) (d : DataSet Nat) (F : Finder Nat), ProperParams W.param ∧
    intrinsicMain W keepCalibrate (idCeres V3) s = .ok (some rep) ∧ DataParam W (W.param "data_path") d ∧ FinderParam W F ∧
    (∀ i cs, IntrinsicItem (plainEnv F) d.images i cs → RigidMotion (tilted i) ∧
      ∀ k ∈ cs, ((tilted i).apply k.inTarget).z ≠ 0 ∧ k.inImage = pinhole ⟨2, 3, 4, 5⟩ ((tilted i).apply k.inTarget)) ∧
    (∃ cs, IntrinsicItem (plainEnv F) d.images 0 cs ∧ SeesGrid 9 cs ∧ (tilted 0).inv.t.z ≠ 0) ∧
    (∀ i ∈ [0, 1, 2], ∃ cs, IntrinsicItem (plainEnv F) d.images i cs ∧ SeesQuadrangle cs ∧ (tilted i).inv.t.z ≠ 0) ∧
    ¬ FewDirections ([0, 1, 2].map fun i => Spec.planeNormal (tilted i)) ∧ rep.opt.final = some 0 ∧ rep.intrinsics = ⟨2, 3, 4, 5⟩ := by
  obtain ⟨P, C, D, fs, path, es, col, saved, stored, msg, a1, a2, a3, a4, a5, a6, a7, a8, hcap, hmsg⟩ :=
    example_session (fun _ => 1) fun _ => .one
  obtain ⟨hset, hcol, hitem, hitem'⟩ := exampleWorld_intrinsic (T := fun _ => 1) (threshold := 0)
    (view := fun n : Nat => gridImage ⟨2, 3, 4, 5⟩ (tilted n)) a8
  obtain ⟨r, hr⟩ := intrinsic_returns [gridImage ⟨2, 3, 4, 5⟩ (tilted 0), gridImage ⟨2, 3, 4, 5⟩ (tilted 1), gridImage ⟨2, 3, 4, 5⟩ (tilted 2)]
    (by simp) (by simp [gridImage_ne]) ⟨1, 1, 0, 0⟩
  obtain ⟨s, res, poses, -, h1, h2, h3, h4, h5, h6⟩ := intrinsic_reached (idCeres_wf Mem) hr (intr := ⟨2, 3, 4, 5⟩)
    (fun i _ => tilted_rigid i) (by
      intro i hi
      have : i = 0 ∨ i = 1 ∨ i = 2 := by simp at hi; omega
      rcases this with rfl | rfl | rfl <;> exact gridImage_perfect _)
  have hp := exampleWorld_proper C (saveToDirectory P D fs path stored).1 (indexFile path) 0
    (fun n : Nat => gridImage ⟨2, 3, 4, 5⟩ (tilted n))
  have n1 : (Spec.planeNormal (tilted 0)).cross (Spec.planeNormal (tilted 1)) ≠ 0 := by
    intro h; have := congrArg V3.x h; simp [Spec.planeNormal, tilted, V3.cross] at this
  have n2 : (Spec.planeNormal (tilted 0)).cross (Spec.planeNormal (tilted 2)) ≠ 0 := by
    intro h; have := congrArg V3.x h; simp [Spec.planeNormal, tilted, V3.cross, M3.one_def] at this
  have n3 : (Spec.planeNormal (tilted 1)).cross (Spec.planeNormal (tilted 2)) ≠ 0 := by
    intro h; have := congrArg V3.y h; simp [Spec.planeNormal, tilted, V3.cross, M3.one_def] at this
  refine ⟨_, s, _, _, _, hp, (intrinsicMain_ok_iff _ hp _ _ _ _).2 ⟨_, _, _, _, ⟨⟨1, 1, 0, 0⟩, [0, 0, 0, 0, 0]⟩, res, hset, hcol, rfl, h1, rfl⟩,
    hset.data, hset.finder, ?_, ?_, ?_, ?_, ?_, h5⟩
  · intro i cs hi
    obtain ⟨hlt, rfl⟩ := hitem i cs hi
    exact ⟨tilted_rigid i, gridImage_perfect i⟩
  · exact ⟨_, hitem' 0 (by norm_num), gridImage_sees _ _, by simp [tilted, Iso.inv, M3.tr, M3.mulVec]⟩
  · intro i hi
    simp only [List.mem_cons, List.not_mem_nil, or_false] at hi
    have q := fun T => (gridImage_sees ⟨2, 3, 4, 5⟩ T).quadrangle (by norm_num)
    rcases hi with rfl | rfl | rfl
    · exact ⟨_, hitem' 0 (by norm_num), q _, by simp [tilted, Iso.inv, M3.tr, M3.mulVec]⟩
    · exact ⟨_, hitem' 1 (by norm_num), q _, by simp [tilted, Iso.inv, M3.tr, M3.mulVec]⟩
    · exact ⟨_, hitem' 2 (by norm_num), q _, by simp [tilted, Iso.inv, M3.tr, M3.mulVec, M3.one_def]⟩
  · exact not_few_of_three (a := Spec.planeNormal (tilted 0)) (b := Spec.planeNormal (tilted 1)) (c := Spec.planeNormal (tilted 2))
      (by simp) (by simp) (by simp) n1 n2 n3
  · show res.finalCost.map Real.sqrt = some 0
    rw [h3]
    simp

/-- A square around the optical axis meets the hypotheses of `C213_circle`. -/
example : ∃ (p : IntrinsicProblem) (res : IntrinsicResult), intrinsic (idCeres V3) (idCeres Mem) p = .ok res ∧ (idCeres Mem).WF ∧
    p.observations.length = 1 ∧ RigidMotion (shiftBy (-1 / 2) (-1 / 2) 1) ∧
    PerfectImages ⟨2, 3, 4, 5⟩ (fun _ => shiftBy (-1 / 2) (-1 / 2) 1) p.observations ∧
    (∀ i, i < p.observations.length → ∀ k ∈ p.observations.getD i [], ((shiftBy (-1 / 2) (-1 / 2) 1).apply k.inTarget).x ^ 2 +
      ((shiftBy (-1 / 2) (-1 / 2) 1).apply k.inTarget).y ^ 2 = Real.sqrt (1 / 2) ^ 2 * ((shiftBy (-1 / 2) (-1 / 2) 1).apply k.inTarget).z ^ 2) := by
  obtain ⟨r, hr⟩ := intrinsic_returns [squareImage ⟨2, 3, 4, 5⟩ (shiftBy (-1 / 2) (-1 / 2) 1)] (by simp) (by simp [squareImage, squarePoints])
    ⟨1, 1, 0, 0⟩
  refine ⟨_, r, hr, idCeres_wf Mem, rfl, ?_, ?_, ?_⟩
  · rw [← rigid_iff]; exact M3.IsRot.one
  · intro i hi k hk
    have : i = 0 := by simpa using hi
    subst this
    obtain ⟨q, hq, rfl⟩ := List.mem_map.1 hk
    simp only [squarePoints, List.mem_cons, List.not_mem_nil, or_false] at hq
    refine ⟨?_, rfl⟩
    rcases hq with rfl | rfl | rfl | rfl <;> simp [shiftBy_apply]
  · intro i hi k hk
    have : i = 0 := by simpa using hi
    subst this
    obtain ⟨q, hq, rfl⟩ := List.mem_map.1 hk
    simp only [squarePoints, List.mem_cons, List.not_mem_nil, or_false] at hq
    rw [Real.sq_sqrt (by norm_num)]
    rcases hq with rfl | rfl | rfl | rfl <;> simp [shiftBy_apply] <;> norm_num

end RCT
