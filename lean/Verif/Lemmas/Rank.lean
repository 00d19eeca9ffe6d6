import Verif.Spec.Rank
import Verif.Lemmas.JetCosts
import Verif.Lemmas.Solver

/-!
# Derivatives of lists of residuals
-/

namespace RCT

open Spec Filter Topology

/-- The list of functions and their derivatives at zero. -/
def DerivList (F : ℝ → List ℝ) (vs : List ℝ) : Prop :=
  ∃ fs : List (ℝ → ℝ), (∀ u, F u = fs.map fun f => f u) ∧ List.Forall₂ (fun f v => HasDerivAt f v 0) fs vs

theorem DerivList.speed {F : ℝ → List ℝ} {vs : List ℝ} (h : DerivList F vs) (i : Nat) :
    HasDerivAt (fun u => (F u).getD i 0) (vs.getD i 0) 0 := by
  obtain ⟨fs, h1, h2⟩ := h
  have e : (fun u => (F u).getD i 0) = fun u => (fs.map fun f => f u).getD i 0 := funext fun u => by rw [h1]
  rw [e]
  clear e h1
  induction h2 generalizing i with
  | nil => simpa using hasDerivAt_const (0 : ℝ) (0 : ℝ)
  | cons h _ ih =>
    cases i with
    | zero => simpa using h
    | succ i => simpa using ih i

theorem DerivList.append {F G : ℝ → List ℝ} {vs ws : List ℝ} (h : DerivList F vs) (g : DerivList G ws) :
    DerivList (fun u => F u ++ G u) (vs ++ ws) := by
  obtain ⟨fs, h1, h2⟩ := h
  obtain ⟨gs, g1, g2⟩ := g
  exact ⟨fs ++ gs, fun u => by simp [h1, g1], List.rel_append h2 g2⟩

theorem DerivList.flatMap {α : Type} {l : List α} {F : α → ℝ → List ℝ} {vs : α → List ℝ}
    (h : ∀ a ∈ l, DerivList (F a) (vs a)) : DerivList (fun u => l.flatMap fun a => F a u) (l.flatMap vs) := by
  induction l with
  | nil => exact ⟨[], fun u => rfl, .nil⟩
  | cons a l ih =>
    simp only [List.flatMap_cons]
    exact (h a (by simp)).append (ih fun b hb => h b (by simp [hb]))

theorem DerivList.of_tan {F : ℝ → List ℝ} {js : List Jet} (h : TanList F 0 js) (hf : AllFinite js) : ∃ vs, DerivList F vs := by
  obtain ⟨fs, h1, h2⟩ := h
  suffices ∃ vs, List.Forall₂ (fun f v => HasDerivAt f v 0) fs vs by
    obtain ⟨vs, hv⟩ := this
    exact ⟨vs, fs, h1, hv⟩
  clear h1
  induction h2 with
  | nil => exact ⟨[], .nil⟩
  | cons h _ ih =>
    obtain ⟨v, hv⟩ := hf _ List.mem_cons_self
    obtain ⟨vs, hvs⟩ := ih fun j hj => hf j (by simp [hj])
    exact ⟨v :: vs, .cons (h.der v hv) hvs⟩

/-- Derivatives of all residuals from those of the blocks. -/
theorem residuals_deriv {β : Type} {pb : List (ResBlock β)} {γ : ℝ → Nat → β} {vs : ResBlock β → List ℝ}
    (h : ∀ b ∈ pb, DerivList (fun u => b.residual (γ u)) (vs b)) :
    DerivList (fun u => residuals pb (γ u)) (pb.flatMap vs) := DerivList.flatMap h

theorem speed_zero_of_const {β : Type} {pb : List (ResBlock β)} {γ : ℝ → Nat → β}
    (h : ∀ u, residuals pb (γ u) = residuals pb (γ 0)) (i : Nat) : Speed pb γ i 0 := by
  unfold Speed
  simp only [h]
  exact hasDerivAt_const _ _

theorem smooth_of_blocks {β : Type} {pb : List (ResBlock β)} {γ : ℝ → Nat → β}
    (h : ∀ b ∈ pb, ∃ vs, DerivList (fun u => b.residual (γ u)) vs) (i : Nat) : ∃ v, Speed pb γ i v := by
  have : ∀ b, ∃ vs, b ∈ pb → DerivList (fun u => b.residual (γ u)) vs := fun b => by
    by_cases hb : b ∈ pb
    · obtain ⟨vs, hv⟩ := h b hb; exact ⟨vs, fun _ => hv⟩
    · exact ⟨[], fun h => absurd h hb⟩
  choose vs hvs using this
  exact ⟨_, (residuals_deriv hvs).speed i⟩

/-- The covariance computation fails if the solver reports a singular Jacobian. -/
theorem computeCovariance_rejected {cs : CovSolver} {blocks : List Nat} {names : SMap Nat (List String)}
    {masks : SMap Nat (List Int)} (h3 : cs.compute blocks = .ok false) (res : CovResult) :
    computeCovariance cs blocks names masks ≠ .ok res := by
  intro h
  unfold computeCovariance at h
  split at h
  · cases h
  · rw [Res.bind_ok_iff] at h
    obtain ⟨t, -, h⟩ := h
    rw [h3, Res.ok_bind, if_pos rfl] at h
    cases h

/-! ## Straight motions of poses -/

def poseAlong (d : Nat → ℝ) (u : ℝ) (p : Pose6) : Pose6 :=
  ⟨p.rx + u * d 0, p.ry + u * d 1, p.rz + u * d 2, p.x + u * d 3, p.y + u * d 4, p.z + u * d 5⟩

/-- Move all poses straight; speeds beyond the sixth element are ignored. -/
def posesAlong (d : Nat → Nat → ℝ) (st : Nat → Pose6) (u : ℝ) : Nat → Pose6 := fun b => poseAlong (d b) u (st b)

theorem posesAlong_zero (d : Nat → Nat → ℝ) (st : Nat → Pose6) : posesAlong d st 0 = st := by
  funext b; simp [posesAlong, poseAlong]

theorem posesAlong_straight (d : Nat → Nat → ℝ) (st : Nat → Pose6) :
    Straight Pose6.mem (posesAlong d st) fun b k => if k < 6 then d b k else 0 := by
  intro u b k
  rw [posesAlong_zero]
  match k with
  | 0 | 1 | 2 | 3 | 4 | 5 => simp [posesAlong, poseAlong, Pose6.mem]
  | k + 6 => simp [Pose6.mem]

theorem Spec.Straight.pose {γ : ℝ → Nat → Pose6} {d : Nat → Nat → ℝ} (h : Straight Pose6.mem γ d) (u : ℝ) (b : Nat) :
    γ u b = poseAlong (d b) u (γ 0 b) := by
  have h0 := h u b 0
  have h1 := h u b 1
  have h2 := h u b 2
  have h3 := h u b 3
  have h4 := h u b 4
  have h5 := h u b 5
  simp only [Pose6.mem] at h0 h1 h2 h3 h4 h5
  exact Pose6.ext h0 h1 h2 h3 h4 h5

/-- The jet of a pose that moves straight. -/
def poseJet (d : Nat → ℝ) (p : Pose6) : JPose :=
  ⟨⟨⟨p.rx, some (d 0)⟩, ⟨p.ry, some (d 1)⟩, ⟨p.rz, some (d 2)⟩⟩, ⟨⟨p.x, some (d 3)⟩, ⟨p.y, some (d 4)⟩, ⟨p.z, some (d 5)⟩⟩⟩

theorem tan_line (x d : ℝ) : Tan (fun u => x + u * d) 0 ⟨x, some d⟩ := by
  have h : HasDerivAt (fun u : ℝ => x + u * d) d 0 := by
    simpa using ((hasDerivAt_id (0 : ℝ)).mul_const d).const_add x
  refine ⟨by simp, h.continuousAt, fun v hv => ?_⟩
  cases hv
  exact h

theorem poseJet_tan (d : Nat → ℝ) (p : Pose6) : TanPose (fun u => poseAlong d u p) 0 (poseJet d p) :=
  ⟨⟨tan_line _ _, tan_line _ _, tan_line _ _⟩, ⟨tan_line _ _, tan_line _ _, tan_line _ _⟩⟩

theorem poseJet_finite (d : Nat → ℝ) (p : Pose6) : FinPose (poseJet d p) :=
  ⟨⟨⟨_, rfl⟩, ⟨_, rfl⟩, ⟨_, rfl⟩⟩, ⟨⟨_, rfl⟩, ⟨_, rfl⟩, ⟨_, rfl⟩⟩⟩

theorem Spec.Straight.tanPose {γ : ℝ → Nat → Pose6} {d : Nat → Nat → ℝ} (h : Straight Pose6.mem γ d) (b : Nat) :
    TanPose (fun u => γ u b) 0 (poseJet (d b) (γ 0 b)) := by
  have e : (fun u => γ u b) = fun u => poseAlong (d b) u (γ 0 b) := funext fun u => h.pose u b
  rw [e]
  exact poseJet_tan _ _

end RCT
