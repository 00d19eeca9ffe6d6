import Verif.Model.CircleFit
import Verif.Props.HandEye

/-!
# C48, C49: maximum likelihood prior and circle fit
-/

namespace RCT
open Spec

/-! ## C48 Maximum likelihood prior is zero exactly at the mean

Full statement: construction throws exactly when the sizes differ, otherwise the residual of each element is
(parameter - mean) / stdev. Only the numbers of elements are compared, so that tables of different shape with equally many
elements are accepted and evaluated with mismatched shapes (`C48_negation`). -/

/-- Same number of rows and columns. -/
def SameShape (a b : MatD) : Prop := a.rows = b.rows ∧ a.cols = b.cols

theorem C48_throws_iff (mean stdev : MatD) :
    (MaxLik.make mean stdev).Throws ↔ mean.rows * mean.cols ≠ stdev.rows * stdev.cols := by
  unfold MaxLik.make
  split <;> simp_all

/-- For tables of the same shape: construction returns; element (r, c) of the residual is the deviation of element (r, c)
of the parameter table in standard deviations; all of them vanish exactly at the mean. `param` is the parameter table,
stored column by column. -/
theorem C48_partial (mean stdev : MatD) (hs : SameShape mean stdev) :
    ∃ m, MaxLik.make mean stdev = .ok m ∧ ∀ (param : Nat → Nat → ℝ) (mem : Mem),
      (∀ r < mean.rows, ∀ c < mean.cols, mem (c * mean.rows + r) = param r c) →
      ∃ res, m.eval mem = .ok res ∧
        (∀ r < mean.rows, ∀ c < mean.cols,
          res (c * mean.rows + r) = (param r c - mean.val r c) / stdev.val r c) ∧
        ((∀ r < mean.rows, ∀ c < mean.cols, stdev.val r c ≠ 0) →
          ((∀ o < mean.rows * mean.cols, res o = 0) ↔ ∀ r < mean.rows, ∀ c < mean.cols, param r c = mean.val r c)) := by
  refine ⟨⟨mean, stdev⟩, ?_, ?_⟩
  · unfold MaxLik.make; rw [if_neg (by rw [hs.1, hs.2]; simp)]
  · intro param mem hmem
    have key : ∀ r < mean.rows, ∀ c, (c * mean.rows + r) % mean.rows = r ∧ (c * mean.rows + r) / mean.rows = c := by
      intro r hr c
      constructor
      · rw [Nat.mul_comm, Nat.mul_add_mod, Nat.mod_eq_of_lt hr]
      · rw [Nat.mul_comm, Nat.mul_add_div (by omega), Nat.div_eq_of_lt hr, Nat.add_zero]
    refine ⟨fun o => (mem o - mean.val (o % mean.rows) (o / mean.rows)) / stdev.val (o % mean.rows) (o / mean.rows),
      ?_, ?_, ?_⟩
    · unfold MaxLik.eval
      rw [if_pos ⟨hs.1, hs.2⟩]
    · intro r hr c hc
      simp only
      rw [(key r hr c).1, (key r hr c).2, hmem r hr c hc]
    · intro hne
      have hlt : ∀ r < mean.rows, ∀ c < mean.cols, c * mean.rows + r < mean.rows * mean.cols := by
        intro r hr c hc
        calc c * mean.rows + r < c * mean.rows + mean.rows := by omega
          _ = (c + 1) * mean.rows := by ring
          _ ≤ mean.cols * mean.rows := Nat.mul_le_mul_right _ hc
          _ = _ := Nat.mul_comm _ _
      constructor
      · intro h r hr c hc
        have := h _ (hlt r hr c hc)
        simp only at this
        rw [(key r hr c).1, (key r hr c).2, hmem r hr c hc, div_eq_zero_iff] at this
        rcases this with h' | h'
        · linarith
        · exact absurd h' (hne r hr c hc)
      · intro h o ho
        have hr0 : 0 < mean.rows := by
          rcases Nat.eq_zero_or_pos mean.rows with h0 | h0
          · rw [h0, Nat.zero_mul] at ho; omega
          · exact h0
        have hr : o % mean.rows < mean.rows := Nat.mod_lt _ hr0
        have hc : o / mean.rows < mean.cols := (Nat.div_lt_iff_lt_mul hr0).2 (by rwa [Nat.mul_comm])
        have e : o / mean.rows * mean.rows + o % mean.rows = o := by rw [Nat.mul_comm]; exact Nat.div_add_mod _ _
        have hm := hmem _ hr _ hc
        rw [e] at hm
        simp only [hm, h _ hr _ hc, sub_self, zero_div]

/-- Tables of different shape are accepted, and evaluation is undefined. -/
theorem C48_negation : ∃ mean stdev : MatD, ¬ SameShape mean stdev ∧ ∃ m, MaxLik.make mean stdev = .ok m ∧
    ∀ mem, m.eval mem = .ub := by
  refine ⟨⟨2, 3, fun _ _ => 0⟩, ⟨3, 2, fun _ _ => 1⟩, by simp [SameShape], ⟨⟨2, 3, fun _ _ => 0⟩, ⟨3, 2, fun _ _ => 1⟩⟩,
    by simp [MaxLik.make], fun mem => by simp [MaxLik.eval]⟩

example : SameShape ⟨2, 3, fun _ _ => 0⟩ ⟨2, 3, fun _ _ => 1⟩ ∧ ∀ r < 2, ∀ c < 3, (fun _ _ => (1 : ℝ)) r c ≠ 0 := by
  simp [SameShape]

/-! ## C49 Circle fit reports a circle with non-negative radius -/

/-- The point lies on the circle. -/
def OnCircle (x y r : ℝ) (o : V2) : Prop := (o.x - x) ^ 2 + (o.y - y) ^ 2 = r ^ 2

theorem circleFit_ok {s : Ceres Mem} {p : CircleFitProblem} {res : CircleFitResult} (h : circleFit s p = .ok res) :
    res.xCenter = s.solve (circleBuild p) (circleInit p) 0 0 ∧ res.yCenter = s.solve (circleBuild p) (circleInit p) 0 1 ∧
    res.radius = s.solve (circleBuild p) (circleInit p) 0 2 ^ 2 ∧
    res.finalCost = costPerObs (circleBuild p) (s.solve (circleBuild p) (circleInit p)) := by
  unfold circleFit at h
  simp only [Res.bind_ok_iff] at h
  obtain ⟨cov, -, h⟩ := h
  cases h
  exact ⟨rfl, rfl, rfl, rfl⟩

theorem C49_radius (s : Ceres Mem) (p : CircleFitProblem) (res : CircleFitResult) (h : circleFit s p = .ok res) :
    0 ≤ res.radius := by
  rw [(circleFit_ok h).2.2.1]; positivity

/-- One residual per observation, in order: squared radius minus squared distance from the centre, for the reported
circle. -/
theorem C49_residuals (s : Ceres Mem) (p : CircleFitProblem) (res : CircleFitResult) (h : circleFit s p = .ok res) :
    residuals (circleBuild p) (s.solve (circleBuild p) (circleInit p)) =
      p.observations.map fun o => res.radius ^ 2 - ((o.x - res.xCenter) ^ 2 + (o.y - res.yCenter) ^ 2) := by
  obtain ⟨h1, h2, h3, -⟩ := circleFit_ok h
  rw [h1, h2, h3]
  obtain ⟨st, hst⟩ : ∃ st, st = s.solve (circleBuild p) (circleInit p) := ⟨_, rfl⟩
  rw [← hst]
  rw [circleBuild, residuals_map, List.map_eq_flatMap]
  apply flatMap_congr'
  intro o _
  simp only [ResBlock.residual, List.map_cons, List.map_nil, evalMem1, circleCost, List.cons.injEq, and_true]
  ring

/-- The residual of an observation vanishes exactly when it lies on the reported circle. -/
theorem C49_zero_iff (s : Ceres Mem) (p : CircleFitProblem) (res : CircleFitResult) (h : circleFit s p = .ok res)
    (k : Nat) (o : V2) (hk : p.observations[k]? = some o) :
    (residuals (circleBuild p) (s.solve (circleBuild p) (circleInit p)))[k]? = some 0 ↔
      OnCircle res.xCenter res.yCenter res.radius o := by
  rw [C49_residuals s p res h, List.getElem?_map, hk]
  simp only [Option.map_some, Option.some.injEq, OnCircle]
  constructor <;> intro h <;> linarith

/-- The two formulations of the cost agree. -/
theorem C49_formulations (obs : V2) (m xs ys rs : Mem) (h0 : m 0 = xs 0) (h1 : m 1 = ys 0) (h2 : m 2 = rs 0) :
    circleCost obs m = circleCost3 obs xs ys rs := by
  simp only [circleCost, circleCost3, h0, h1, h2]

/-- With the solver at its start the initial circle is reported. -/
theorem C49_guess (s : Ceres Mem) (p : CircleFitProblem) (res : CircleFitResult) (h : circleFit s p = .ok res)
    (hstay : ∀ pb st, s.solve pb st = st) (hr : 0 ≤ p.radiusInitial) :
    res.xCenter = p.xInitial ∧ res.yCenter = p.yInitial ∧ res.radius = p.radiusInitial := by
  obtain ⟨h1, h2, h3, -⟩ := circleFit_ok h
  rw [h1, h2, h3, hstay]
  simp [circleInit, Real.sq_sqrt hr]

theorem circleEx_returns_of (r : ℝ) : ∃ res, circleFit (idCeres Mem) ⟨[⟨1, 0⟩, ⟨0, 1⟩], 0, 0, r⟩ = .ok res := by
  obtain ⟨p, hp⟩ : ∃ p : CircleFitProblem, p = ⟨[⟨1, 0⟩, ⟨0, 1⟩], 0, 0, r⟩ := ⟨_, rfl⟩
  rw [← hp]
  have hu : (usedBlocks (circleBuild p)).Perm [0] :=
    usedBlocks_const p.observations (by rw [hp]; simp) _ _ (by decide) (fun _ _ => rfl)
  obtain ⟨cov, hc⟩ := computeCovariance_returns
    (cs := (idCeres Mem).covSolver (circleBuild p) ((idCeres Mem).solve (circleBuild p) (circleInit p)) 3)
    (blocks := (idCeres Mem).order (circleBuild p)) (names := SMap.insert [] 0 circleLabels) (masks := [])
    (by show SMap.size _ = (usedBlocks _).length; rw [hu.length_eq]; rfl)
    (by
      intro b hb
      have hb' : b ∈ usedBlocks (circleBuild p) := hb
      have h0 := hu.subset hb'
      simp only [List.mem_singleton] at h0
      subst h0
      exact ⟨circleLabels, by rw [SMap.find_insert, if_pos rfl], by simp [Ceres.covSolver, hb', circleLabels]⟩) rfl rfl
  exact ⟨_, (Res.bind_ok_iff _ _ _).2 ⟨cov, hc, rfl⟩⟩

theorem circleEx_returns : ∃ res, circleFit (idCeres Mem) ⟨[⟨1, 0⟩, ⟨0, 1⟩], 0, 0, 1⟩ = .ok res := circleEx_returns_of 1

example : (∃ res, circleFit (idCeres Mem) ⟨[⟨1, 0⟩, ⟨0, 1⟩], 0, 0, 1⟩ = .ok res) ∧
    ∀ pb st, (idCeres Mem).solve pb st = st := ⟨circleEx_returns, fun _ _ => rfl⟩

end RCT
