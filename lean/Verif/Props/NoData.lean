import Verif.Props.KinematicRuns
import Verif.Props.Reports

/-!
# C90 No result without data: kinematic calibration
-/

namespace RCT

open Spec

theorem kinOptimize_nothing (K : KCeres) (hK : K.WF) (p : KinProblem) : kinOptimize K p [] = .abort := by
  have h0 : K.order [] = [] := by
    have := hK.order_perm []
    rw [usedBlocks_nil] at this; exact this.eq_nil
  unfold kinOptimize
  by_cases h : p.cameraChain.dof = 0 ∨ p.targetChain.dof = 0
  · exact if_pos ⟨h, rfl⟩
  · rw [if_neg fun h' => h h'.1]
    have e : addSubsetParameterization (kinBlocks p []) (kinMasks p) = ([], .ok ()) := by
      unfold addSubsetParameterization kinBlocks
      split <;> rfl
    have hd : p.cameraChain.dof ≠ 0 := fun h' => h (.inl h')
    simp only [List.map_nil, h0, e, Res.ok_bind, kinPrior, if_pos hd, isConstantBlock, List.find?_nil]
    rfl

/-- Kinematic calibration without features or measurements aborts the process inside the solver library. -/
theorem C90_kinematic_aborts (K : KCeres) (hK : K.WF) (p : KinProblem) (intr : Intr) (weight : ℝ) (obs : List KinObs)
    (h : ∀ o ∈ obs, o.correspondences = []) : kinematic2 K p intr obs = .abort ∧ kinematic6 K p weight [] = .abort := by
  refine ⟨?_, kinOptimize_nothing K hK p⟩
  have e : kinCosts2 p intr obs = [] := by
    unfold kinCosts2
    rw [List.flatMap_eq_nil_iff]
    intro o ho
    rw [h o ho]; rfl
  unfold kinematic2
  rw [e]
  exact kinOptimize_nothing K hK p

/-- Two observations in which nothing was seen. -/
example : idKCeres.WF ∧ ∀ o ∈ [(⟨[], [0], [1]⟩ : KinObs), ⟨[], [1], [0]⟩], o.correspondences = [] :=
  ⟨idKCeres_wf, by simp⟩

end RCT
