import Verif.Props.Intrinsic
import Verif.Props.Reports

/-!
# C91 (names), C147: names in the covariance reports of circle fit and intrinsic calibration
-/

namespace RCT

open Spec

/-- The parameters of the intrinsic calibration by their names: focal lengths and principal point, and the distortion
coefficients in the order of OpenCV. -/
def Spec.intrinsicByName (r : IntrinsicResult) : String → Option ℝ
  | "fx" => some r.intrinsics.fx
  | "fy" => some r.intrinsics.fy
  | "cx" => some r.intrinsics.cx
  | "cy" => some r.intrinsics.cy
  | "k1" => r.distortions[0]?
  | "k2" => r.distortions[1]?
  | "p1" => r.distortions[2]?
  | "p2" => r.distortions[3]?
  | "k3" => r.distortions[4]?
  | _ => none

/-- The parameters of the circle by their names. -/
def Spec.circleByName (r : CircleFitResult) : String → Option ℝ
  | "x" => some r.xCenter
  | "y" => some r.yCenter
  | "r" => some r.radius
  | _ => none

theorem intrNames_intr (p : IntrinsicProblem) : (intrNames p).find intrBlk = some labelsIntrinsic := by
  unfold intrNames
  rw [find_foldl_insert_ne _ _ _ _ _ (fun c _ h => by unfold intrBlk poseBlk at h; omega), SMap.find_insert, if_pos rfl]

theorem intrNames_pose (p : IntrinsicProblem) (i : Nat) (hi : i < p.observations.length) :
    (intrNames p).find (poseBlk i) = some (labelsIntrinsicPose.map fun l => p.labelExtr ++ toString i ++ "_" ++ l) := by
  unfold intrNames
  rw [find_foldl_insert _ poseBlk (fun a b h => by unfold poseBlk at h; omega) _ _ _ hi]

/-- The entries of the report in terms of the blocks. -/
theorem intr_report {s3 : Ceres V3} {s : Ceres Mem} {p : IntrinsicProblem} {res : IntrinsicResult}
    (h : intrinsic s3 s p = .ok res) :
    ∀ k b i : Nat, (elements intrSize (intrBlk :: (List.range p.observations.length).map poseBlk))[k]? = some (b, i) →
      ∃ l str, (intrNames p).find b = some l ∧ l[i]? = some str ∧
        res.covariance.standard_deviations[k]? = some ⟨str, "", res.covariance.correlation_matrix.val k k⟩ := by
  obtain ⟨poses, -, hcov, -⟩ := intrinsic_ok h
  have hin := (C26_returns _ _ _ _ _ hcov).2.1
  have hbs : elements (fun b => ((s.covSolverF (intrBuild p poses) (s.solve (intrBuild p poses) (intrInit p poses))
      intrSize).blockSize b).getD 0) (intrBlk :: (List.range p.observations.length).map poseBlk) =
      elements intrSize (intrBlk :: (List.range p.observations.length).map poseBlk) := by
    unfold elements
    apply flatMap_congr'
    intro b hb
    obtain ⟨size, l, h1, -⟩ := hin b hb
    simp only [Ceres.covSolverF] at h1 ⊢
    split at h1
    · rename_i hu
      rw [if_pos hu]; rfl
    · cases h1
  obtain ⟨full, h1, h2, -, h4⟩ := computeCovariance_unmasked (by
    intro b n hb
    simp only [Ceres.covSolverF] at hb
    split at hb
    · cases hb; unfold intrSize; split <;> norm_num
    · cases hb) hcov
  rw [hbs] at h4
  intro k b i hk
  obtain ⟨-, l, str, h6, h7, h8⟩ := h4 k b i hk
  exact ⟨l, str, h6, h7, h8⟩

theorem elements_head (n k : Nat) (hk : k < 9) :
    (elements intrSize (intrBlk :: (List.range n).map poseBlk))[k]? = some (intrBlk, k) := by
  unfold elements
  rw [List.flatMap_cons, List.getElem?_append_left (by simp [intrSize, hk])]
  simp [intrSize, hk]

theorem elements_pose (n i j : Nat) (hi : i < n) (hj : j < 6) :
    (elements intrSize (intrBlk :: (List.range n).map poseBlk))[9 + 6 * i + j]? = some (poseBlk i, j) := by
  unfold elements
  rw [List.flatMap_cons, List.getElem?_append_right (by simp [intrSize]; omega)]
  have e : 9 + 6 * i + j - ((List.range (intrSize intrBlk)).map fun i => (intrBlk, i)).length = 6 * i + j := by
    simp [intrSize]; omega
  rw [e]
  clear e
  have key : ∀ (n o i : Nat), i < n → (((List.range' o n).map poseBlk).flatMap fun b =>
      (List.range (intrSize b)).map fun i => (b, i))[6 * i + j]? = some (poseBlk (o + i), j) := by
    intro n
    induction n with
    | zero => intro o i hi; omega
    | succ n ih =>
      intro o i hi
      rw [List.range'_succ, List.map_cons, List.flatMap_cons]
      have hs : intrSize (poseBlk o) = 6 := by simp [intrSize, intrBlk, poseBlk]
      cases i with
      | zero =>
        rw [List.getElem?_append_left (by simp [hs]; omega)]
        simp [hs, hj]
      | succ i =>
        rw [List.getElem?_append_right (by simp [hs]; omega)]
        have e : 6 * (i + 1) + j - ((List.range (intrSize (poseBlk o))).map fun i => (poseBlk o, i)).length = 6 * i + j := by
          simp [hs]; omega
        rw [e, ih (o + 1) i (by omega)]
        congr 3
        omega
  have := key n 0 i hi
  rwa [← List.range_eq_range', Nat.zero_add] at this

/- C147, full statement: every entry of the covariance report of an intrinsic calibration carries the name of the parameter
it belongs to: the nine intrinsic parameters, and the components of the poses of the target. The names of the components of
the poses are wrong: `C147_negation`. -/
/-- The first nine entries carry the names under which the result reports the values of the nine elements of the block of
the intrinsic parameters. -/
theorem C147_partial (s3 : Ceres V3) (s : Ceres Mem) (p : IntrinsicProblem) (res : IntrinsicResult)
    (h : intrinsic s3 s p = .ok res) :
    ∃ final : Nat → ℝ, (∃ poses, intrPoses s3 p = .ok poses ∧ final = s.solve (intrBuild p poses) (intrInit p poses) intrBlk) ∧
      ∀ k < 9, ∃ name, res.covariance.standard_deviations[k]? = some ⟨name, "", res.covariance.correlation_matrix.val k k⟩ ∧
        intrinsicByName res name = some (final k) := by
  obtain ⟨poses, hp, -, -, hi, hd⟩ := intrinsic_ok h
  refine ⟨_, ⟨poses, hp, rfl⟩, fun k hk => ?_⟩
  obtain ⟨l, str, h1, h2, h3⟩ := intr_report h k intrBlk k (elements_head _ k hk)
  refine ⟨str, h3, ?_⟩
  rw [intrNames_intr] at h1
  cases h1
  have : k = 0 ∨ k = 1 ∨ k = 2 ∨ k = 3 ∨ k = 4 ∨ k = 5 ∨ k = 6 ∨ k = 7 ∨ k = 8 := by omega
  rcases this with rfl | rfl | rfl | rfl | rfl | rfl | rfl | rfl | rfl <;>
    (simp only [labelsIntrinsic, List.getElem?_cons_zero, List.getElem?_cons_succ, Option.some.injEq] at h2; subst h2;
     simp [intrinsicByName, hi, hd])

/-- Every entry of a pose carries the name of another component of this pose. -/
theorem C147_negation (s3 : Ceres V3) (s : Ceres Mem) (p : IntrinsicProblem) (res : IntrinsicResult)
    (h : intrinsic s3 s p = .ok res) (i j : Nat) (hi : i < p.observations.length) (hj : j < 6) :
    ∃ n name, componentNames[j]? = some n ∧
      (res.covariance.standard_deviations[9 + 6 * i + j]?).map NamedParam.first = some name ∧
      name ≠ p.labelExtr ++ toString i ++ "_" ++ n := by
  obtain ⟨l, str, h1, h2, h3⟩ := intr_report h _ (poseBlk i) j (elements_pose _ i j hi hj)
  rw [intrNames_pose p i hi] at h1
  cases h1
  rw [h3]
  rw [List.getElem?_map, Option.map_eq_some_iff] at h2
  obtain ⟨x, hx, rfl⟩ := h2
  have : j = 0 ∨ j = 1 ∨ j = 2 ∨ j = 3 ∨ j = 4 ∨ j = 5 := by omega
  rcases this with rfl | rfl | rfl | rfl | rfl | rfl <;>
    (simp only [labelsIntrinsicPose, List.getElem?_cons_zero, List.getElem?_cons_succ, Option.some.injEq] at hx; subst hx;
     exact ⟨_, _, rfl, rfl, append_label_ne (by decide)⟩)

/-- What the names are instead: the entries of the rotation carry the names of the translation and the other way round, so
exchanging the two halves of the names of a pose makes the report right. -/
theorem C147_exchanged (s3 : Ceres V3) (s : Ceres Mem) (p : IntrinsicProblem) (res : IntrinsicResult)
    (h : intrinsic s3 s p = .ok res) (i j : Nat) (hi : i < p.observations.length) (hj : j < 6) :
    ∃ n, componentNames[(j + 3) % 6]? = some n ∧
      (res.covariance.standard_deviations[9 + 6 * i + j]?).map NamedParam.first =
        some (p.labelExtr ++ toString i ++ "_" ++ n) := by
  obtain ⟨l, str, h1, h2, h3⟩ := intr_report h _ (poseBlk i) j (elements_pose _ i j hi hj)
  rw [intrNames_pose p i hi] at h1
  cases h1
  rw [h3]
  rw [List.getElem?_map, Option.map_eq_some_iff] at h2
  obtain ⟨x, hx, rfl⟩ := h2
  have : j = 0 ∨ j = 1 ∨ j = 2 ∨ j = 3 ∨ j = 4 ∨ j = 5 := by omega
  rcases this with rfl | rfl | rfl | rfl | rfl | rfl <;>
    (simp only [labelsIntrinsicPose, List.getElem?_cons_zero, List.getElem?_cons_succ, Option.some.injEq] at hx; subst hx;
     exact ⟨_, rfl, rfl⟩)

/-- A run that returns. -/
example : ∃ res, intrinsic (idCeres V3) (idCeres Mem) ⟨[[⟨⟨0, 0⟩, ⟨0, 0, 1⟩⟩]], ⟨1, 1, 0, 0⟩, "pose"⟩ = .ok res := intr_examples.2

/-- C91, names: entry `k` of the report of a circle fit carries the name under which the result reports the value of
element `k` of the block; for the radius this is the square of the element. -/
theorem C91_labels (s : Ceres Mem) (hs : s.WF) (p : CircleFitProblem) (r : CircleFitResult) (h : circleFit s p = .ok r) :
    ∃ final : Nat → ℝ, final = s.solve (circleBuild p) (circleInit p) 0 ∧
      ∀ k < 3, ∃ name, r.covariance.standard_deviations[k]? = some ⟨name, "", r.covariance.correlation_matrix.val k k⟩ ∧
        circleByName r name = some (if k = 2 then final k ^ 2 else final k) := by
  obtain ⟨q1, q2, q3, -⟩ := circleFit_ok h
  refine ⟨_, rfl, fun k hk => ?_⟩
  have hne : p.observations ≠ [] := fun h0 => C90_circle s hs p h0 r h
  unfold circleFit at h
  simp only [Res.bind_ok_iff] at h
  obtain ⟨cov, hc, h⟩ := h
  cases h
  have hu : s.order (circleBuild p) = [0] := by
    have h1 := hs.order_perm (circleBuild p)
    have h2 := usedBlocks_const p.observations hne (fun o => (⟨[0], evalMem1 (circleCost o)⟩ : ResBlock Mem)) [0] (by simp)
      (fun _ _ => rfl)
    exact List.perm_singleton.1 (h1.trans h2)
  rw [hu] at hc
  obtain ⟨full, hf, -, -, hk'⟩ := computeCovariance_unmasked (fun b n hb => by
    unfold Ceres.covSolver at hb
    simp only at hb
    split at hb
    · cases hb; norm_num
    · cases hb) hc
  have h0 : 0 ∈ usedBlocks (circleBuild p) := by
    rw [← (hs.order_perm _).mem_iff, hu]; simp
  have hE : (Spec.elements (fun b => (((s.covSolver (circleBuild p)
      (s.solve (circleBuild p) (circleInit p)) 3)).blockSize b).getD 0) [0])[k]? = some (0, k) := by
    simp [Spec.elements, Ceres.covSolver, h0, hk]
  obtain ⟨-, l, str, h6, h7, h8⟩ := hk' k 0 k hE
  refine ⟨str, h8, ?_⟩
  rw [SMap.find_insert, if_pos rfl] at h6
  cases h6
  have : k = 0 ∨ k = 1 ∨ k = 2 := by omega
  rcases this with rfl | rfl | rfl <;>
    (simp only [circleLabels, List.getElem?_cons_zero, List.getElem?_cons_succ, Option.some.injEq] at h7; subst h7;
     simp [circleByName])

example : (idCeres Mem).WF ∧ ∃ res, circleFit (idCeres Mem) ⟨[⟨1, 0⟩, ⟨0, 1⟩], 0, 0, 1⟩ = .ok res :=
  ⟨idCeres_wf Mem, circleEx_returns⟩

end RCT
