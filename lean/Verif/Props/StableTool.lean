import Verif.Props.StableIntrinsic
import Verif.Props.NoDistortion

/-!
# C216 for the tool for intrinsic calibration
-/

namespace RCT

open Spec

theorem ascending_eq : ∀ {l l' : List Nat}, l.Pairwise (· < ·) → l'.Pairwise (· < ·) → (∀ i, i ∈ l ↔ i ∈ l') → l = l' := by
  intro l l' h h' hm
  have hp : l.Perm l' := (List.perm_ext_iff_of_nodup (h.imp Nat.ne_of_lt) (h'.imp Nat.ne_of_lt)).2 hm
  exact hp.eq_of_pairwise (fun a b _ _ hab hba => by omega) h h'

/-- The tool for intrinsic calibration. Fixed are the true camera, the numbers of the images in which the target is found, the points of
the target seen in each and its true poses, which determine the camera; further the wanted accuracy. Then there is a tolerance such that
whenever the pixels are within it of the true ones, the tool prints a final error within it, and the printed distortion moves no feature
by more than it, the printed centre and (up to sign) focal lengths have the wanted accuracy. -/
theorem C216_tool (cam : Intr) (hx : cam.fx ≠ 0) (hy : cam.fy ≠ 0) (T : Nat → Iso) (seen : List Nat) (hseen : seen.Pairwise (· < ·))
    (pts : Nat → List V3) (good : List Nat) (hgood : ∀ i ∈ good, i ∈ seen ∧ ViewedWell (T i) (pts i))
    (hfew : ¬ FewDirections (good.map fun i => Spec.planeNormal (T i))) (e : ℝ) (he : 0 < e) :
    ∃ r : ℝ, 0 < r ∧ ∀ (Img : Type) (W : ToolWorld Img) (cv : CvCalibrate Img) (s3 : Ceres V3) (s : Ceres Mem) (rep : IntrinsicReport)
      (d : DataSet Img) (F : Finder Img) (f : ℝ), ProperParams W.param → intrinsicMain W cv s3 s = .ok (some rep) →
      DataParam W (W.param "data_path") d → FinderParam W F →
      (∀ i, i ∈ seen ↔ i < d.images.length ∧ ∃ cs, IntrinsicItem (plainEnv F) d.images i cs) →
      (∀ i cs, IntrinsicItem (plainEnv F) d.images i cs → targetPoints cs = pts i ∧
        PixelNoise r cs (fun k => k.inImage) fun k => pinhole cam ((T i).apply k.inTarget)) →
      rep.opt.final = some f → f ≤ r →
      ∃ obs intr poses, SelectedAt d.images.length (IntrinsicItem (plainEnv F) d.images) seen obs ∧
        intrPoses s3 { observations := obs, guess := intr } = .ok poses ∧ ∀ T' : Nat → Iso,
        (∀ i, T' i = poseCalToEigen (s.solve (intrBuild { observations := obs, guess := intr } poses)
          (intrInit { observations := obs, guess := intr } poses) (poseBlk i)).pose) →
        (∀ i, i < obs.length → RigidMotion (T' i)) →
        (∀ i, i < obs.length → ∀ k ∈ obs.getD i [], ((T' i).apply k.inTarget).z ≠ 0) →
        LittleDistortion r rep.intrinsics rep.distortions T' obs → CloseCamera e rep.intrinsics cam := by
  have hidx : ∀ i ∈ seen, seen.idxOf i < seen.length ∧ seen.getD (seen.idxOf i) 0 = i := by
    intro i hi
    have hlt := List.idxOf_lt_length_iff.2 hi
    refine ⟨hlt, ?_⟩
    rw [List.getD_eq_getElem?_getD, List.getElem?_eq_getElem hlt]
    simp
  obtain ⟨r, hr, hcam⟩ := C216_camera cam hx hy (fun n => T (seen.getD n 0)) (seen.map pts) (good.map fun i => seen.idxOf i)
    (by
      intro n hn
      obtain ⟨i, hi, rfl⟩ := List.mem_map.1 hn
      obtain ⟨hs, hv⟩ := hgood i hi
      obtain ⟨h1, h2⟩ := hidx i hs
      refine ⟨by simpa using h1, ?_⟩
      have : (seen.map pts).getD (seen.idxOf i) [] = pts i := by
        rw [List.getD_eq_getElem?_getD, List.getElem?_map, List.getElem?_eq_getElem h1]
        simp
      rw [this, h2]
      exact hv)
    (by
      rw [List.map_map]
      convert hfew using 2
      refine List.map_congr_left fun i hi => ?_
      simp only [Function.comp]; rw [(hidx i (hgood i hi).1).2]) e he
  refine ⟨min r 1, lt_min hr one_pos, fun Img W cv s3 s rep d F f hp h hd hF hsel hdata hfin hle => ?_⟩
  have hle1 := min_le_left r 1
  have hle2 := min_le_right r 1
  obtain ⟨d', F', intr, js, obs, res, front, K, dist, hset, hsel', hr', hrep, -⟩ := C190_intrinsic W hp cv s3 s rep h
  obtain rfl : d' = d := by
    obtain ⟨p1, a1, a2⟩ := hset.data
    obtain ⟨p2, b1, b2⟩ := hd
    rw [a1] at b1; cases b1
    rw [a2] at b2; cases b2; rfl
  obtain rfl : F' = F := Res.ok.inj (((loadFinder_ok_iff W F').2 hset.finder).symm.trans ((loadFinder_ok_iff W F).2 hF))
  obtain rfl : js = seen := ascending_eq hsel'.1 hseen fun i => (hsel'.2.1 i).trans (hsel i).symm
  have hlen := hsel'.2.2.length_eq
  have hat : ∀ n, n < obs.length → IntrinsicItem (plainEnv F') d'.images (js.getD n 0) (obs.getD n []) := by
    intro n hn
    have := hsel'.2.2.get (by omega : n < js.length) hn
    simpa [List.getD_eq_getElem?_getD, List.getElem?_eq_getElem hn, List.getElem?_eq_getElem (by omega : n < js.length)] using this
  have htargets : obs.map targetPoints = js.map pts := by
    refine List.ext_getElem (by simp [hlen]) fun n h1 h2 => ?_
    simp only [List.length_map] at h1 h2
    have := (hdata _ _ (hat n h1)).1
    simpa [List.getD_eq_getElem?_getD, List.getElem?_eq_getElem h1, List.getElem?_eq_getElem h2] using this
  have hcost : ∃ C, res.finalCost = some C ∧ C ≤ r := by
    rw [hrep.final, Option.map_eq_some_iff] at hfin
    obtain ⟨C, hC, rfl⟩ := hfin
    refine ⟨C, hC, ?_⟩
    have h0 : Real.sqrt C ≤ 1 := hle.trans hle2
    by_cases hneg : C ≤ 0
    · linarith
    · have hpos : 0 ≤ C := le_of_lt (not_le.1 hneg)
      have hsq := Real.mul_self_sqrt hpos
      have hs0 := Real.sqrt_nonneg C
      nlinarith [hle.trans hle1]
  obtain ⟨C, hC, hCr⟩ := hcost
  have noise : ∀ {a b : ℝ}, a ≤ b → ∀ {α : Type} {l : List α} {m t : α → V2}, PixelNoise a l m t → PixelNoise b l m t :=
    fun hab _ _ _ _ h x hx => ⟨(h x hx).1.trans hab, (h x hx).2.trans hab⟩
  obtain ⟨poses, hposes, hfinal⟩ := hcam s3 s _ res C hr' htargets
    (fun n hn => noise hle1 (hdata _ _ (hat n hn)).2) hC hCr
  refine ⟨obs, intr, poses, hsel', hposes, fun T' h1 h2 h3 h4 => ?_⟩
  rw [hrep.intrinsics, hrep.distortions] at h4
  rw [hrep.intrinsics]
  exact hfinal T' h1 h2 h3 fun n hn => noise hle1 (h4 n hn)

/-- For any tolerance `r`: a run of the tool on three images of a square of which every pixel is wrong by `r` that meets all hypotheses. -/
example (r : ℝ) (hr : 0 < r) : ∃ (W : ToolWorld Nat) (s : Ceres Mem) (rep : IntrinsicReport) (d : DataSet Nat) (F : Finder Nat),
    ProperParams W.param ∧ intrinsicMain W keepCalibrate (idCeres V3) s = .ok (some rep) ∧ DataParam W (W.param "data_path") d ∧
    FinderParam W F ∧ ([0, 1, 2] : List Nat).Pairwise (· < ·) ∧ (∀ i ∈ [0, 1, 2], i ∈ [0, 1, 2] ∧ ViewedWell (tilted i) squarePoints) ∧
    ¬ FewDirections ([0, 1, 2].map fun i => Spec.planeNormal (tilted i)) ∧
    (∀ i, i ∈ [0, 1, 2] ↔ i < d.images.length ∧ ∃ cs, IntrinsicItem (plainEnv F) d.images i cs) ∧
    (∀ i cs, IntrinsicItem (plainEnv F) d.images i cs → targetPoints cs = squarePoints ∧
      PixelNoise r cs (fun k => k.inImage) fun k => pinhole ⟨2, 3, 4, 5⟩ ((tilted i).apply k.inTarget)) ∧
    rep.opt.final = some 0 ∧ rep.intrinsics.cx ≠ 4 ∧
    ∃ obs intr poses, SelectedAt d.images.length (IntrinsicItem (plainEnv F) d.images) [0, 1, 2] obs ∧
      intrPoses (idCeres V3) { observations := obs, guess := intr } = .ok poses ∧ ∃ T' : Nat → Iso,
      (∀ i, T' i = poseCalToEigen (s.solve (intrBuild { observations := obs, guess := intr } poses)
        (intrInit { observations := obs, guess := intr } poses) (poseBlk i)).pose) ∧
      (∀ i, i < obs.length → RigidMotion (T' i)) ∧
      (∀ i, i < obs.length → ∀ k ∈ obs.getD i [], ((T' i).apply k.inTarget).z ≠ 0) ∧
      LittleDistortion r rep.intrinsics rep.distortions T' obs := by
  obtain ⟨c, hc⟩ : ∃ c : Intr, c = ⟨2, 3, 4 + r, 5⟩ := ⟨_, rfl⟩
  obtain ⟨imgs, himgs⟩ : ∃ imgs, imgs = [squareImage c (tilted 0), squareImage c (tilted 1), squareImage c (tilted 2)] := ⟨_, rfl⟩
  have hlen : imgs.length = 3 := by rw [himgs]; rfl
  have hget : ∀ i, i < 3 → imgs.getD i [] = squareImage c (tilted i) := by
    intro i hi
    rw [himgs]
    interval_cases i <;> rfl
  have hdep : ∀ i, i < 3 → ∀ q ∈ squarePoints, 0 < ((tilted i).apply q).z := by
    intro i hi q hq
    simp only [squarePoints, List.mem_cons, List.not_mem_nil, or_false] at hq
    interval_cases i <;> rcases hq with rfl | rfl | rfl | rfl <;> simp [tilted, Iso.apply, M3.mulVec, M3.one_def] <;> norm_num
  have hperf : PerfectImages c tilted imgs := by
    intro i hi k hk
    rw [hlen] at hi
    rw [hget i hi] at hk
    obtain ⟨q, hq, rfl⟩ := List.mem_map.1 hk
    exact ⟨(hdep i hi q hq).ne', rfl⟩
  obtain ⟨P, C, D, fs, path, es, col, saved, stored, msg, a1, a2, a3, a4, a5, a6, a7, a8, hcap, hmsg⟩ :=
    example_session (fun _ => 1) fun _ => .one
  obtain ⟨hset, hcol, hitem, hitem'⟩ := exampleWorld_intrinsic (T := fun _ => 1) (threshold := 0)
    (view := fun n : Nat => squareImage c (tilted n)) a8
  rw [← himgs] at hcol
  obtain ⟨r0, hr0⟩ := intrinsic_returns imgs (by rw [himgs]; simp) (by rw [himgs]; simp [squareImage, squarePoints]) ⟨1, 1, 0, 0⟩
  obtain ⟨s, res, poses, -, h1, h2, h3, h4, h5, h6⟩ := intrinsic_reached (idCeres_wf Mem) hr0 (fun i _ => tilted_rigid i) hperf
  have hp := exampleWorld_proper C (saveToDirectory P D fs path stored).1 (indexFile path) 0
    (fun n : Nat => squareImage c (tilted n))
  have n1 : (Spec.planeNormal (tilted 0)).cross (Spec.planeNormal (tilted 1)) ≠ 0 := by
    intro h; have := congrArg V3.x h; simp [Spec.planeNormal, tilted, V3.cross] at this
  have n2 : (Spec.planeNormal (tilted 0)).cross (Spec.planeNormal (tilted 2)) ≠ 0 := by
    intro h; have := congrArg V3.x h; simp [Spec.planeNormal, tilted, V3.cross, M3.one_def] at this
  have n3 : (Spec.planeNormal (tilted 1)).cross (Spec.planeNormal (tilted 2)) ≠ 0 := by
    intro h; have := congrArg V3.y h; simp [Spec.planeNormal, tilted, V3.cross, M3.one_def] at this
  have hT : ∀ i, i < 3 → poseCalToEigen (s.solve (intrBuild ⟨imgs, ⟨1, 1, 0, 0⟩, "pose"⟩ poses)
      (intrInit ⟨imgs, ⟨1, 1, 0, 0⟩, "pose"⟩ poses) (poseBlk i)).pose = tilted i := fun i hi => h6 i (by show i < imgs.length; rw [hlen]; exact hi)
  have hmem : ∀ i : Nat, i ∈ [0, 1, 2] ↔ i < 3 := by intro i; simp; omega
  have hsel : ∀ i, i ∈ [0, 1, 2] ↔ i < ([0, 1, 2] : List Nat).length ∧
      ∃ cs, IntrinsicItem (plainEnv (exampleFinder fun n : Nat => squareImage c (tilted n))) [0, 1, 2] i cs := fun i =>
    (hmem i).trans ⟨fun h => ⟨h, _, hitem' i h⟩, fun h => h.1⟩
  refine ⟨_, s, _, _, _, hp, (intrinsicMain_ok_iff _ hp _ _ _ _).2 ⟨_, _, _, _, ⟨⟨1, 1, 0, 0⟩, [0, 0, 0, 0, 0]⟩, res, hset, hcol, by rw [himgs]; rfl, h1, rfl⟩,
    hset.data, hset.finder, by simp, ?_, ?_, hsel, ?_, ?_, ?_, imgs, _, poses, ⟨by simp, hsel, ?_⟩, h2, _, fun i => rfl, ?_, ?_, ?_⟩
  · intro i hi
    have hi3 := (hmem i).1 hi
    refine ⟨hi, tilted_rigid i, ?_, ?_, fun q hq => (hdep i hi3 q hq).ne'⟩
    · interval_cases i <;> simp [tilted, Iso.inv, M3.tr, M3.mulVec, M3.one_def]
    · exact ⟨_, by simp [squarePoints], _, by simp [squarePoints], _, by simp [squarePoints], _, by simp [squarePoints], square_quadrangle⟩
  · exact not_few_of_three (a := Spec.planeNormal (tilted 0)) (b := Spec.planeNormal (tilted 1)) (c := Spec.planeNormal (tilted 2))
      (by simp) (by simp) (by simp) n1 n2 n3
  · intro i cs hi
    obtain ⟨hlt, rfl⟩ := hitem i cs hi
    refine ⟨by simp [targetPoints, squareImage, Function.comp_def], fun k hk => ?_⟩
    obtain ⟨q, -, rfl⟩ := List.mem_map.1 hk
    rw [hc]
    simp [pinhole, abs_of_pos hr, hr.le]
  · show res.finalCost.map Real.sqrt = some 0
    rw [h3]
    simp
  · show res.intrinsics.cx ≠ 4
    rw [h5, hc]; simpa using hr.ne'
  · rw [himgs]
    exact .cons (hitem' 0 (by norm_num)) (.cons (hitem' 1 (by norm_num)) (.cons (hitem' 2 (by norm_num)) .nil))
  · intro i hi
    rw [hT i (by rw [← hlen]; exact hi)]
    exact tilted_rigid i
  · intro i hi k hk
    have hi' : i < 3 := by rw [← hlen]; exact hi
    rw [hget i hi'] at hk
    obtain ⟨q, hq, rfl⟩ := List.mem_map.1 hk
    rw [hT i hi']
    exact (hdep i hi' q hq).ne'
  · intro i hi k hk
    show |(lensPixel res.intrinsics res.distortions _).x - _| ≤ r ∧ |(lensPixel res.intrinsics res.distortions _).y - _| ≤ r
    rw [h4]
    simp only [lensPixel, List.getD_cons_zero, List.getD_cons_succ, brown_plain]
    simpa using hr.le

end RCT
