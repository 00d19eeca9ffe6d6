import Verif.Lemmas.StableKin
import Verif.Lemmas.StableIntrinsic
import Verif.Spec.StableKin
import Verif.Props.Stable

/-!
# C222: Little noise and a small final cost leave the mounts of two kinematic chains close to the truth
-/

namespace RCT
open Spec Filter Topology

/-- What is known of a calibration with small offsets and nearly correct predictions. -/
structure NearFit (r : ℝ) (cc tc : DHChain) (qs : List (List ℝ × List ℝ)) (k k' : Calib) : Prop where
  rigid : k'.Rigid
  lenC : k'.offC.length = cc.transforms.length
  lenT : k'.offT.length = tc.transforms.length
  offs : OffsetsWithin r k'
  fits : ∀ q ∈ qs, Spec.Close r (k'.predicts cc tc q.1 q.2) (k.predicts cc tc q.1 q.2)

theorem NearFit.mono {r r' : ℝ} (h : r ≤ r') {cc tc : DHChain} {qs : List (List ℝ × List ℝ)} {k k' : Calib}
    (hf : NearFit r cc tc qs k k') : NearFit r' cc tc qs k k' where
  rigid := hf.rigid
  lenC := hf.lenC
  lenT := hf.lenT
  offs := fun v hv => by
    obtain ⟨a, b, c, d⟩ := hf.offs v hv
    exact ⟨a.trans h, b.trans h, c.trans h, d.trans h⟩
  fits := fun q hq => (hf.fits q hq).mono h

/-- The poses of the three transforms come arbitrarily close to the true ones. -/
def CalibTends (k' : ℕ → Calib) (X Y Z : Iso) : Prop :=
  Tends (fun n => (k' n).cm) X ∧ Tends (fun n => (k' n).tm) Y ∧ Tends (fun n => (k' n).cb) Z

/-- The tolerance of step `n`. -/
noncomputable def tol (n : ℕ) : ℝ := 1 / ((n : ℝ) + 1)

theorem tol_pos (n : ℕ) : 0 < tol n := by unfold tol; positivity

theorem tol_small {e : ℝ} (he : 0 < e) : ∀ᶠ n in atTop, tol n ≤ e := by
  filter_upwards [eventually_ge_atTop ⌈1 / e⌉₊] with n hn
  unfold tol
  rw [div_le_iff₀ (by positivity)]
  have h1 : 1 / e ≤ n := (Nat.le_ceil _).trans (by exact_mod_cast hn)
  rw [div_le_iff₀ he] at h1
  nlinarith

theorem tends_of_tol {S : ℕ → Iso} {T : Iso} (h : ∀ n, Spec.Close (tol n) (S n) T) : Tends S T := fun e he => by
  filter_upwards [tol_small he] with n hn
  exact (h n).mono hn

/-- From sequences to tolerances. -/
theorem of_sequences {P : ℝ → Calib → Prop} {X Y Z : Iso} (h : ∀ k' : ℕ → Calib, (∀ n, P (tol n) (k' n)) → CalibTends k' X Y Z) {e : ℝ}
    (he : 0 < e) : ∃ r : ℝ, 0 < r ∧ ∀ k', P r k' → Spec.Close e k'.cm X ∧ Spec.Close e k'.tm Y ∧ Spec.Close e k'.cb Z := by
  by_contra hne
  have hn : ∀ n, ∃ k', P (tol n) k' ∧ ¬ (Spec.Close e k'.cm X ∧ Spec.Close e k'.tm Y ∧ Spec.Close e k'.cb Z) := fun n => by
    by_contra hno
    refine hne ⟨tol n, tol_pos n, fun k' hk => ?_⟩
    by_contra hc
    exact hno ⟨k', hk, hc⟩
  choose k' hP hc using hn
  obtain ⟨h1, h2, h3⟩ := h k' hP
  obtain ⟨n, a, b, c⟩ := ((h1 e he).and ((h2 e he).and (h3 e he))).exists
  exact hc n ⟨a, b, c⟩

section
variable {cc tc : DHChain} (hcc : cc.base.IsRigid) (htc : tc.base.IsRigid) {qs : List (List ℝ × List ℝ)} {X Y Z : Iso} (hX : X.IsRigid)
  (hY : Y.IsRigid) (hZ : Z.IsRigid) {k' : ℕ → Calib} (hf : ∀ n, NearFit (tol n) cc tc qs (plainCalib cc tc X Y Z) (k' n))
include hcc htc hX hY hZ hf

theorem chains_tend (q : List ℝ × List ℝ) : Tends (fun n => endPose cc (k' n).offC q.1) (nominalEnd cc q.1) ∧
    Tends (fun n => endPose tc (k' n).offT q.2) (nominalEnd tc q.2) := by
  have hoff : ∀ e : ℝ, 0 < e → ∀ᶠ n in atTop, OffsetsWithin e (k' n) := fun e he => by
    filter_upwards [tol_small he] with n hn
    exact ((hf n).mono hn).offs
  have hc := chainPose_tends (cc.transforms.map fun t => (t.params, t.type)) (offs := fun n => (k' n).offC)
    (fun n => by rw [List.length_map]; exact (hf n).lenC)
    (fun e he => (hoff e he).mono fun n h v hv => h v (List.mem_append_left _ hv)) q.1 hcc (fun _ => hcc) (Tends.const _)
  have ht := chainPose_tends (tc.transforms.map fun t => (t.params, t.type)) (offs := fun n => (k' n).offT)
    (fun n => by rw [List.length_map]; exact (hf n).lenT)
    (fun e he => (hoff e he).mono fun n h v hv => h v (List.mem_append_right _ hv)) q.2 htc (fun _ => htc) (Tends.const _)
  rw [List.length_map] at hc ht
  exact ⟨hc, ht⟩

theorem predictions_tend {q : List ℝ × List ℝ} (hq : q ∈ qs) :
    Tends (fun n => (k' n).cm.inv * ((endPose cc (k' n).offC q.1).inv * ((k' n).cb * (endPose tc (k' n).offT q.2 * (k' n).tm))))
      (X.inv * ((nominalEnd cc q.1).inv * (Z * (nominalEnd tc q.2 * Y)))) := by
  have := tends_of_tol fun n => (hf n).fits q hq
  rw [plain_predicts hcc hX] at this
  refine fun e he => (this e he).mono fun n hn => ?_
  simp only [Calib.predicts] at hn
  rwa [inv_mul_rev (endPose_rigid hcc _ _) ((rigid_iff _).2 (hf n).rigid.1), Iso.mul_assoc, Iso.mul_assoc] at hn

theorem tend_known_camera (hx : Tends (fun n => (k' n).cm) X) (ht : TargetTurns tc qs) : CalibTends k' X Y Z := by
  obtain ⟨a, ha, b, hb, c, hc, d, hd, hax⟩ := ht
  have rX := fun n => (rigid_iff _).2 (hf n).rigid.1
  have rY := fun n => (rigid_iff _).2 (hf n).rigid.2.1
  have rZ := fun n => (rigid_iff _).2 (hf n).rigid.2.2
  have rA := fun n q => endPose_rigid hcc (k' n).offC q
  have rB := fun n q => endPose_rigid htc (k' n).offT q
  have nA := nominalEnd_rigid hcc
  have nB := nominalEnd_rigid htc
  have key : ∀ q ∈ qs, Tends (fun n => (k' n).cb * endPose tc (k' n).offT q.2 * (k' n).tm) (Z * nominalEnd tc q.2 * Y) := by
    intro q hq
    have h0 := predictions_tend hcc htc hX hY hZ hf hq
    have h1 := hx.mul h0 rX (hX.inv.mul ((nA _).inv.mul (hZ.mul ((nB _).mul hY))))
    simp only [Iso.mul_inv_cancel_left hX, Iso.mul_inv_cancel_left (rX _)] at h1
    have h2 := (chains_tend hcc htc hX hY hZ hf q).1.mul h1 (fun n => rA n _) ((nA _).inv.mul (hZ.mul ((nB _).mul hY)))
    simp only [Iso.mul_inv_cancel_left (nA _), Iso.mul_inv_cancel_left (rA _ _)] at h2
    simpa only [Iso.mul_assoc] using h2
  have tB := fun q => (chains_tend hcc htc hX hY hZ hf q).2
  have := sandwich_tends hZ hY rZ rY (nB _) (nB _) (nB _) (nB _) (fun n => rB n _) (fun n => rB n _) (fun n => rB n _) (fun n => rB n _)
    hax (tB a) (tB b) (tB c) (tB d) (key a ha) (key b hb) (key c hc) (key d hd)
  exact ⟨hx, this.2, this.1⟩

theorem tend_known_target (hy : Tends (fun n => (k' n).tm) Y) (ht : CameraTurns cc qs) : CalibTends k' X Y Z := by
  obtain ⟨a, ha, b, hb, c, hc, d, hd, hax⟩ := ht
  have rX := fun n => (rigid_iff _).2 (hf n).rigid.1
  have rY := fun n => (rigid_iff _).2 (hf n).rigid.2.1
  have rZ := fun n => (rigid_iff _).2 (hf n).rigid.2.2
  have rA := fun n q => endPose_rigid hcc (k' n).offC q
  have rB := fun n q => endPose_rigid htc (k' n).offT q
  have nA := nominalEnd_rigid hcc
  have nB := nominalEnd_rigid htc
  have tA := fun q => (chains_tend hcc htc hX hY hZ hf q).1
  have tB := fun q => (chains_tend hcc htc hX hY hZ hf q).2
  have key : ∀ q ∈ qs, Tends (fun n => (k' n).cm.inv * (endPose cc (k' n).offC q.1).inv * (k' n).cb)
      (X.inv * (nominalEnd cc q.1).inv * Z) := by
    intro q hq
    have h0 := predictions_tend hcc htc hX hY hZ hf hq
    have h1 := (tB q).mul hy (fun n => rB n _) hY
    have h2 := h0.mul (h1.inv (fun n => (rB n _).mul (rY n)) ((nB _).mul hY))
      (fun n => (rX n).inv.mul ((rA n _).inv.mul ((rZ n).mul ((rB n _).mul (rY n))))) ((nB _).mul hY).inv
    simpa only [Iso.mul_assoc, Iso.mul_inv ((rB _ _).mul (rY _)), Iso.mul_inv ((nB _).mul hY), Iso.mul_one] using h2
  have := sandwich_tends hX.inv hZ (fun n => (rX n).inv) rZ (nA _).inv (nA _).inv (nA _).inv (nA _).inv (fun n => (rA n _).inv)
    (fun n => (rA n _).inv) (fun n => (rA n _).inv) (fun n => (rA n _).inv)
    (by simpa only [Iso.inv_inv (nA _)] using hax) ((tA a).inv (fun n => rA n _) (nA _)) ((tA b).inv (fun n => rA n _) (nA _))
    ((tA c).inv (fun n => rA n _) (nA _)) ((tA d).inv (fun n => rA n _) (nA _)) (key a ha) (key b hb) (key c hc) (key d hd)
  have hx := this.1.inv (fun n => (rX n).inv) hX.inv
  simp only [Iso.inv_inv hX, Iso.inv_inv (rX _)] at hx
  exact ⟨hx, hy, this.2⟩

theorem tend_known_base (hz : Tends (fun n => (k' n).cb) Z) (ht : RelativeTurns cc tc Z qs) : CalibTends k' X Y Z := by
  obtain ⟨a, ha, b, hb, c, hc, d, hd, hax⟩ := ht
  have rX := fun n => (rigid_iff _).2 (hf n).rigid.1
  have rY := fun n => (rigid_iff _).2 (hf n).rigid.2.1
  have rZ := fun n => (rigid_iff _).2 (hf n).rigid.2.2
  have rA := fun n q => endPose_rigid hcc (k' n).offC q
  have rB := fun n q => endPose_rigid htc (k' n).offT q
  have nA := nominalEnd_rigid hcc
  have nB := nominalEnd_rigid htc
  have tA := fun q => (chains_tend hcc htc hX hY hZ hf q).1
  have tB := fun q => (chains_tend hcc htc hX hY hZ hf q).2
  have rC : ∀ q : List ℝ × List ℝ, ∀ n, ((endPose cc (k' n).offC q.1).inv * ((k' n).cb * endPose tc (k' n).offT q.2)).IsRigid :=
    fun q n => (rA n _).inv.mul ((rZ n).mul (rB n _))
  have nC : ∀ q : List ℝ × List ℝ, (endToEnd cc tc Z q).IsRigid := fun q => (nA _).inv.mul (hZ.mul (nB _))
  have tC : ∀ q : List ℝ × List ℝ, Tends (fun n => (endPose cc (k' n).offC q.1).inv * ((k' n).cb * endPose tc (k' n).offT q.2))
      (endToEnd cc tc Z q) := fun q =>
    ((tA q).inv (fun n => rA n _) (nA _)).mul (hz.mul (tB q) rZ (nB _)) (fun n => (rA n _).inv) (hZ.mul (nB _))
  have key : ∀ q ∈ qs, Tends (fun n => (k' n).cm.inv * ((endPose cc (k' n).offC q.1).inv * ((k' n).cb * endPose tc (k' n).offT q.2)) *
      (k' n).tm) (X.inv * endToEnd cc tc Z q * Y) := fun q hq => by
    simpa only [endToEnd, Iso.mul_assoc] using predictions_tend hcc htc hX hY hZ hf hq
  have := sandwich_tends hX.inv hY (fun n => (rX n).inv) rY (nC _) (nC _) (nC _) (nC _) (rC a) (rC b) (rC c) (rC d) hax
    (tC a) (tC b) (tC c) (tC d) (key a ha) (key b hb) (key c hc) (key d hd)
  have hx := this.1.inv (fun n => (rX n).inv) hX.inv
  simp only [Iso.inv_inv hX, Iso.inv_inv (rX _)] at hx
  exact ⟨hx, this.2, hz⟩

theorem tend_target_alone (ht : TargetTurnsAlone cc tc qs) (hc : CameraTurns cc qs) : CalibTends k' X Y Z := by
  refine tend_known_target hcc htc hX hY hZ hf ?_ hc
  obtain ⟨a, ha, b, hb, c, hc, d, hd, hsame, hax⟩ := ht
  simp only [List.mem_cons, List.not_mem_nil, or_false, forall_eq_or_imp, forall_eq] at hsame
  obtain ⟨sb, sc, sd⟩ := hsame
  have rX := fun n => (rigid_iff _).2 (hf n).rigid.1
  have rY := fun n => (rigid_iff _).2 (hf n).rigid.2.1
  have rZ := fun n => (rigid_iff _).2 (hf n).rigid.2.2
  have rA := fun n q => endPose_rigid hcc (k' n).offC q
  have rB := fun n q => endPose_rigid htc (k' n).offT q
  have nA := nominalEnd_rigid hcc
  have nB := nominalEnd_rigid htc
  have tB := fun q => (chains_tend hcc htc hX hY hZ hf q).2
  have key : ∀ q ∈ qs, q.1 = a.1 → Tends (fun n => (k' n).cm.inv * ((endPose cc (k' n).offC a.1).inv * (k' n).cb) *
      endPose tc (k' n).offT q.2 * (k' n).tm) (X.inv * ((nominalEnd cc a.1).inv * Z) * nominalEnd tc q.2 * Y) := fun q hq e => by
    have := predictions_tend hcc htc hX hY hZ hf hq
    rw [e] at this
    simpa only [Iso.mul_assoc] using this
  exact (sandwich_tends (hX.inv.mul ((nA a.1).inv.mul hZ)) hY (fun n => (rX n).inv.mul ((rA n a.1).inv.mul (rZ n))) rY (nB _) (nB _)
    (nB _) (nB _) (fun n => rB n _) (fun n => rB n _) (fun n => rB n _) (fun n => rB n _)
    hax (tB a) (tB b) (tB c) (tB d) (key a ha rfl) (key b hb sb) (key c hc sc) (key d hd sd)).2

theorem tend_camera_alone (hc : CameraTurnsAlone cc tc qs) (ht : TargetTurns tc qs) : CalibTends k' X Y Z := by
  refine tend_known_camera hcc htc hX hY hZ hf ?_ ht
  obtain ⟨a, ha, b, hb, c, hc, d, hd, hsame, hax⟩ := hc
  simp only [List.mem_cons, List.not_mem_nil, or_false, forall_eq_or_imp, forall_eq] at hsame
  obtain ⟨sb, sc, sd⟩ := hsame
  have rX := fun n => (rigid_iff _).2 (hf n).rigid.1
  have rY := fun n => (rigid_iff _).2 (hf n).rigid.2.1
  have rZ := fun n => (rigid_iff _).2 (hf n).rigid.2.2
  have rA := fun n q => endPose_rigid hcc (k' n).offC q
  have rB := fun n q => endPose_rigid htc (k' n).offT q
  have nA := nominalEnd_rigid hcc
  have nB := nominalEnd_rigid htc
  have tA := fun q => (chains_tend hcc htc hX hY hZ hf q).1
  have key : ∀ q ∈ qs, q.2 = a.2 → Tends (fun n => (k' n).cm.inv * (endPose cc (k' n).offC q.1).inv *
      ((k' n).cb * (endPose tc (k' n).offT a.2 * (k' n).tm))) (X.inv * (nominalEnd cc q.1).inv * (Z * (nominalEnd tc a.2 * Y))) :=
    fun q hq e => by
      have := predictions_tend hcc htc hX hY hZ hf hq
      rw [e] at this
      simpa only [Iso.mul_assoc] using this
  have := (sandwich_tends hX.inv (hZ.mul ((nB a.2).mul hY)) (fun n => (rX n).inv) (fun n => (rZ n).mul ((rB n a.2).mul (rY n)))
    (nA _).inv (nA _).inv (nA _).inv (nA _).inv (fun n => (rA n _).inv)
    (fun n => (rA n _).inv) (fun n => (rA n _).inv) (fun n => (rA n _).inv)
    (by simpa only [Iso.inv_inv (nA _)] using hax) ((tA a).inv (fun n => rA n _) (nA _)) ((tA b).inv (fun n => rA n _) (nA _))
    ((tA c).inv (fun n => rA n _) (nA _)) ((tA d).inv (fun n => rA n _) (nA _)) (key a ha rfl) (key b hb sb) (key c hc sc)
    (key d hd sd)).1
  have hx := this.inv (fun n => (rX n).inv) hX.inv
  simpa only [Iso.inv_inv hX, Iso.inv_inv (rX _)] using hx

end

/-- Calibrations with hardly any offsets and nearly correct predictions are nearly correct, if the joint values are enough. -/
theorem near_calib {cc tc : DHChain} (hcc : cc.base.IsRigid) (htc : tc.base.IsRigid) (qs : List (List ℝ × List ℝ)) {X Y Z : Iso}
    (hX : X.IsRigid) (hY : Y.IsRigid) (hZ : Z.IsRigid) {e : ℝ} (he : 0 < e) :
    ∃ r : ℝ, 0 < r ∧ ∀ k', NearFit r cc tc qs (plainCalib cc tc X Y Z) k' → NearlyEnough r cc tc qs (plainCalib cc tc X Y Z) k' →
      CloseCalib e k' (plainCalib cc tc X Y Z) := by
  have step : ∀ {P : ℝ → Calib → Prop}, (∀ k' : ℕ → Calib, (∀ n, NearFit (tol n) cc tc qs (plainCalib cc tc X Y Z) (k' n)) →
      (∀ n, P (tol n) (k' n)) → CalibTends k' X Y Z) → ∃ r : ℝ, 0 < r ∧ ∀ k', NearFit r cc tc qs (plainCalib cc tc X Y Z) k' → P r k' →
      Spec.Close e k'.cm X ∧ Spec.Close e k'.tm Y ∧ Spec.Close e k'.cb Z := by
    intro P h
    obtain ⟨r, hr, hk⟩ := of_sequences (P := fun r k' => NearFit r cc tc qs (plainCalib cc tc X Y Z) k' ∧ P r k')
      (fun k' hk => h k' (fun n => (hk n).1) fun n => (hk n).2) he
    exact ⟨r, hr, fun k' h1 h2 => hk k' ⟨h1, h2⟩⟩
  obtain ⟨r1, p1, h1⟩ := step (P := fun r k' => Spec.Close r k'.cm X ∧ TargetTurns tc qs)
    fun k' hf h => tend_known_camera hcc htc hX hY hZ hf (tends_of_tol fun n => (h n).1) (h 0).2
  obtain ⟨r2, p2, h2⟩ := step (P := fun r k' => Spec.Close r k'.tm Y ∧ CameraTurns cc qs)
    fun k' hf h => tend_known_target hcc htc hX hY hZ hf (tends_of_tol fun n => (h n).1) (h 0).2
  obtain ⟨r3, p3, h3⟩ := step (P := fun r k' => Spec.Close r k'.cb Z ∧ RelativeTurns cc tc Z qs)
    fun k' hf h => tend_known_base hcc htc hX hY hZ hf (tends_of_tol fun n => (h n).1) (h 0).2
  obtain ⟨r4, p4, h4⟩ := step (P := fun _ _ => TargetTurnsAlone cc tc qs ∧ CameraTurns cc qs)
    fun k' hf h => tend_target_alone hcc htc hX hY hZ hf (h 0).1 (h 0).2
  obtain ⟨r5, p5, h5⟩ := step (P := fun _ _ => CameraTurnsAlone cc tc qs ∧ TargetTurns tc qs)
    fun k' hf h => tend_camera_alone hcc htc hX hY hZ hf (h 0).1 (h 0).2
  obtain ⟨r, hr, l0, l1, l2, l3, l4, l5⟩ : ∃ r : ℝ, 0 < r ∧ r ≤ e ∧ r ≤ r1 ∧ r ≤ r2 ∧ r ≤ r3 ∧ r ≤ r4 ∧ r ≤ r5 :=
    ⟨min (min e (min r1 r2)) (min r3 (min r4 r5)), by simp [he, p1, p2, p3, p4, p5], by simp, by simp, by simp, by simp, by simp,
      by simp⟩
  refine ⟨r, hr, fun k' hf hE => ?_⟩
  have key : Spec.Close e k'.cm X ∧ Spec.Close e k'.tm Y ∧ Spec.Close e k'.cb Z := by
    cases hE with
    | camera h ht => exact h1 k' (hf.mono l1) ⟨h.mono l1, ht⟩
    | target h ht => exact h2 k' (hf.mono l2) ⟨h.mono l2, ht⟩
    | base h ht => exact h3 k' (hf.mono l3) ⟨h.mono l3, ht⟩
    | targetAlone ht hc => exact h4 k' (hf.mono l4) ⟨ht, hc⟩
    | cameraAlone hc ht => exact h5 k' (hf.mono l5) ⟨hc, ht⟩
  exact ⟨key.1, key.2.1, key.2.2, (hf.mono l0).offs⟩

/-! ### From costs to predictions -/

theorem turn_le_angle {R : M3} (h : R.IsRot) (v : V3) : (R.mulVec v - v).norm ≤ rotAngle R * v.norm := by
  obtain ⟨h1, h2, h3⟩ := h.toAngleAxis
  have := rot_near_one h1 h2 v
  rw [V3.norm_sub_comm, ← toAngleAxis_angle h]
  rwa [show (⟨R.toAngleAxis.angle, R.toAngleAxis.axis⟩ : AngleAxis) = R.toAngleAxis from rfl, h3] at this

theorem angle_le_turn {R : M3} (h : R.IsRot) {g : ℝ} (hg : ∀ v, (R.mulVec v - v).norm ≤ g * v.norm) : rotAngle R ^ 2 ≤ 8 * g := by
  have unit : ∀ v : V3, v.normSq = 1 → (R.mulVec v - v).norm ≤ g := by
    intro v hv
    have h1 := hg v
    have e : v.norm = 1 := by rw [V3.norm, hv, Real.sqrt_one]
    rwa [e, mul_one] at h1
  have d0 := unit ⟨1, 0, 0⟩ (by simp [V3.normSq, V3.dot])
  have d1 := unit ⟨0, 1, 0⟩ (by simp [V3.normSq, V3.dot])
  have d2 := unit ⟨0, 0, 1⟩ (by simp [V3.normSq, V3.dot])
  have e0 := (V3.abs_x_le _).trans d0
  have e1 := (V3.abs_y_le _).trans d1
  have e2 := (V3.abs_z_le _).trans d2
  simp only [M3.mulVec, V3.sub_x, V3.sub_y, V3.sub_z, mul_one, mul_zero, add_zero, zero_add] at e0 e1 e2
  have k0 := (abs_le.1 e0).1; have k1 := (abs_le.1 e1).1; have k2 := (abs_le.1 e2).1
  have hg0 : 0 ≤ g := (V3.norm_nonneg _).trans d0
  have hs := rotAngle_sq_le h
  have hp : Real.pi ^ 2 / 2 ≤ 5 := by nlinarith [Real.pi_lt_d2, Real.pi_pos]
  have hb : 1 - (R.m00 + R.m11 + R.m22 - 1) / 2 ≤ 3 / 2 * g := by linarith
  have h3 : Real.pi ^ 2 / 2 * (1 - (R.m00 + R.m11 + R.m22 - 1) / 2) ≤ Real.pi ^ 2 / 2 * (3 / 2 * g) :=
    mul_le_mul_of_nonneg_left hb (by positivity)
  have h4 : Real.pi ^ 2 / 2 * (3 / 2 * g) ≤ 5 * (3 / 2 * g) := mul_le_mul_of_nonneg_right hp (by linarith)
  linarith

theorem poseMisfit_nonneg' (w : ℝ) (X T : Iso) : 0 ≤ poseMisfit w X T := by
  unfold poseMisfit
  have := (X * T.inv).t.normSq_nonneg
  positivity

/-- A prediction that nearly agrees with a measurement close to the truth is close to the truth. -/
theorem misfit_close {P : Iso} {w e : ℝ} (hw : w ≠ 0) (he : 0 < e) : ∃ r : ℝ, 0 < r ∧ ∀ r' ≤ r, ∀ X T : Iso, X.IsRigid →
    T.IsRigid → Spec.Close r' X P → poseMisfit w X T ≤ r' → Spec.Close e T P := by
  obtain ⟨c, hc⟩ : ∃ c, c = (2 + P.t.norm) * (1 + 1 / |w|) + 1 := ⟨_, rfl⟩
  have hP := P.t.norm_nonneg
  have hw' : 0 < |w| := abs_pos.2 hw
  have hc0 : 0 < c := by rw [hc]; positivity
  refine ⟨min 1 ((e / c) ^ 2), lt_min one_pos (by positivity), fun r' hr X T hX hT h hm => ?_⟩
  have h1 : r' ≤ 1 := hr.trans (min_le_left _ _)
  have h2 : r' ≤ (e / c) ^ 2 := hr.trans (min_le_right _ _)
  have h0 := h.nonneg
  obtain ⟨s, hs⟩ : ∃ s, s = Real.sqrt r' := ⟨_, rfl⟩
  have hs0 : 0 ≤ s := by rw [hs]; exact Real.sqrt_nonneg _
  have hsq : s ^ 2 = r' := by rw [hs]; exact Real.sq_sqrt h0
  have hse : s ≤ e / c := by rw [hs]; exact Real.sqrt_le_iff.2 ⟨by positivity, h2⟩
  have hs1 : s ≤ 1 := by rw [hs]; exact Real.sqrt_le_iff.2 ⟨zero_le_one, by linarith⟩
  have hrs : r' ≤ s := by nlinarith
  have hG : (X * T.inv).IsRigid := hX.mul hT.inv
  have ht : (X * T.inv).t.norm ≤ s := by
    refine V3.norm_le_of_normSq hs0 ?_
    rw [← sq, hsq]
    refine le_trans ?_ hm
    unfold poseMisfit
    nlinarith [sq_nonneg (w * rotAngle (X.R * T.R.tr))]
  have ha : rotAngle (X * T.inv).R ≤ s / |w| := by
    rw [le_div_iff₀ hw']
    have : (w * rotAngle (X.R * T.R.tr)) ^ 2 ≤ s ^ 2 := by
      rw [hsq]
      refine le_trans ?_ hm
      unfold poseMisfit
      have := (X * T.inv).t.normSq_nonneg
      linarith
    have h3 := abs_le_of_sq_le_sq this hs0
    rw [abs_mul] at h3
    have h4 : rotAngle (X * T.inv).R ≤ |rotAngle (X.R * T.R.tr)| := le_abs_self _
    nlinarith
  have hGc : Spec.Close (s * (1 + 1 / |w|)) (X * T.inv) 1 := by
    intro q
    have eq : (X * T.inv).apply q - (1 : Iso).apply q = ((X * T.inv).R.mulVec q - q) + (X * T.inv).t := by
      rw [Iso.apply_one]
      ext <;> simp [Iso.apply] <;> ring
    rw [eq]
    have k1 := V3.norm_add_le ((X * T.inv).R.mulVec q - q) (X * T.inv).t
    have k2 := turn_le_angle hG q
    have hq := q.norm_nonneg
    have k3 := mul_le_mul_of_nonneg_right ha hq
    have k4 : 0 ≤ s / |w| := by positivity
    have e1 : s * (1 + 1 / |w|) * (1 + q.norm) = s + s / |w| + s * q.norm + s / |w| * q.norm := by ring
    rw [e1]
    have : 0 ≤ s * q.norm := by positivity
    linarith
  have hTX : Spec.Close ((1 + X.t.norm) * (s * (1 + 1 / |w|))) T X := by
    have := (hGc.mul_right hT)
    have h3 := hGc.inverse hG Iso.IsRigid.one
    rw [Iso.inv_one, show (1 : Iso).t.norm = 0 from norm_zero_v3, add_zero, one_mul] at h3
    have h4 := h3.mul_right hX
    rwa [inv_mul_rev hX hT.inv, Iso.inv_inv hT, Iso.mul_assoc, Iso.inv_mul hX, Iso.mul_one, Iso.one_mul] at h4
  have hXt : X.t.norm ≤ P.t.norm + 1 := by
    have atZero : ∀ T : Iso, T.apply 0 = T.t := fun T => by ext <;> simp [Iso.apply, M3.mulVec]
    have k := h 0
    rw [norm_zero_v3, add_zero, mul_one, atZero, atZero] at k
    have e2 : X.t = P.t + (X.t - P.t) := by ext <;> simp
    rw [e2]
    have := V3.norm_add_le P.t (X.t - P.t)
    linarith
  refine (hTX.trans h).mono ?_
  have h5 : (1 + X.t.norm) * (s * (1 + 1 / |w|)) ≤ (2 + P.t.norm) * (s * (1 + 1 / |w|)) :=
    mul_le_mul_of_nonneg_right (by linarith) (by positivity)
  have h6 : s * c ≤ e := by rwa [le_div_iff₀ hc0] at hse
  rw [hc] at h6
  nlinarith

/-- The misfit of the true pose is small. -/
theorem truth_misfit {P : Iso} (hP : P.IsRigid) (w : ℝ) {e : ℝ} (he : 0 < e) : ∃ r : ℝ, 0 < r ∧ ∀ r' ≤ r, ∀ X : Iso, X.IsRigid →
    Spec.Close r' X P → poseMisfit w X P ≤ e := by
  obtain ⟨n, hn⟩ : ∃ n, n = 1 + P.inv.t.norm := ⟨_, rfl⟩
  have hn0 : 0 < n := by rw [hn]; have := P.inv.t.norm_nonneg; linarith
  refine ⟨min (1 / n) (e / (n * (1 + 24 * w ^ 2))), lt_min (by positivity) (by positivity), fun r' hr X hX h => ?_⟩
  have h1 : n * r' ≤ 1 := by
    have := mul_le_mul_of_nonneg_left (hr.trans (min_le_left _ _)) hn0.le
    rwa [mul_one_div_cancel hn0.ne'] at this
  have h2 : r' * (n * (1 + 24 * w ^ 2)) ≤ e := by
    rw [← le_div_iff₀ (by positivity)]; exact hr.trans (min_le_right _ _)
  have hG := h.mul_right hP.inv
  rw [Iso.mul_inv hP, ← hn] at hG
  have h0 := hG.nonneg
  have ht : (X * P.inv).t.normSq ≤ n * r' := by
    have k := hG 0
    have atZero : ∀ T : Iso, T.apply 0 = T.t := fun T => by ext <;> simp [Iso.apply, M3.mulVec]
    have e1 : (1 : Iso).t = 0 := rfl
    have e2 : ∀ a : V3, a - 0 = a := fun a => by ext <;> simp
    rw [norm_zero_v3, add_zero, mul_one, atZero, atZero, e1, e2] at k
    rw [← V3.norm_sq]
    nlinarith [(X * P.inv).t.norm_nonneg]
  have ha : rotAngle (X.R * P.R.tr) ^ 2 ≤ 8 * (3 * (n * r')) := by
    refine angle_le_turn (hX.mul hP.inv) fun v => ?_
    have := hG.turn v
    have e : ((1 : Iso).R).mulVec v = v := M3.one_mulVec v
    rw [e] at this
    exact this
  unfold poseMisfit
  rw [mul_pow]
  have := mul_le_mul_of_nonneg_left ha (sq_nonneg w)
  nlinarith

theorem offsets_of_cost {sdC sdT e : ℝ} (hs : sdC ≠ 0) (hs' : sdT ≠ 0) (he : 0 < e) : ∃ r : ℝ, 0 < r ∧ ∀ k : Calib,
    k.offsetCosts sdC sdT ≤ r → OffsetsWithin e k := by
  have h1 : 0 < |sdC| := abs_pos.2 hs
  have h2 : 0 < |sdT| := abs_pos.2 hs'
  refine ⟨min ((e / |sdC|) ^ 2) ((e / |sdT|) ^ 2), lt_min (by positivity) (by positivity), fun k hk v hv => ?_⟩
  have one : ∀ {sd : ℝ} {l : List V4}, sd ≠ 0 → offsetCost sd l ≤ (e / |sd|) ^ 2 → v ∈ l →
      |v.d| ≤ e ∧ |v.theta| ≤ e ∧ |v.r| ≤ e ∧ |v.alpha| ≤ e := by
    intro sd l hsd hc hv
    have hsd' : 0 < |sd| := abs_pos.2 hsd
    have hle : (v.d / sd) ^ 2 + (v.theta / sd) ^ 2 + (v.r / sd) ^ 2 + (v.alpha / sd) ^ 2 ≤ (e / |sd|) ^ 2 := by
      refine le_trans ?_ hc
      unfold offsetCost
      refine List.single_le_sum ?_ _ (List.mem_map.2 ⟨v, hv, rfl⟩)
      intro x hx
      obtain ⟨y, -, rfl⟩ := List.mem_map.1 hx
      positivity
    have q1 := sq_nonneg (v.d / sd); have q2 := sq_nonneg (v.theta / sd)
    have q3 := sq_nonneg (v.r / sd); have q4 := sq_nonneg (v.alpha / sd)
    have fin : ∀ x : ℝ, (x / sd) ^ 2 ≤ (e / |sd|) ^ 2 → |x| ≤ e := fun x hx => by
      have := abs_le_of_sq_le_sq hx (by positivity)
      rw [abs_div, div_le_div_iff_of_pos_right hsd'] at this
      exact this
    exact ⟨fin _ (by linarith), fin _ (by linarith), fin _ (by linarith), fin _ (by linarith)⟩
  have c1 := offsetCost_nonneg sdC k.offC
  have c2 := offsetCost_nonneg sdT k.offT
  unfold Calib.offsetCosts at hk
  have m1 := min_le_left ((e / |sdC|) ^ 2) ((e / |sdT|) ^ 2)
  have m2 := min_le_right ((e / |sdC|) ^ 2) ((e / |sdT|) ^ 2)
  rcases List.mem_append.1 hv with hv | hv
  · exact one hs (by linarith) hv
  · exact one hs' (by linarith) hv

theorem sum_member {α : Type} {f : α → ℝ} (hf : ∀ a, 0 ≤ f a) {l : List α} {a : α} (ha : a ∈ l) : f a ≤ (l.map f).sum := by
  refine List.single_le_sum ?_ _ (List.mem_map.2 ⟨a, ha, rfl⟩)
  intro x hx
  obtain ⟨y, -, rfl⟩ := List.mem_map.1 hx
  exact hf y

/-- Measured poses close to the truth that a calibration nearly explains. -/
theorem near_poses {cc tc : DHChain} (hcc : cc.base.IsRigid) (htc : tc.base.IsRigid) {w sdC sdT : ℝ} (hw : w ≠ 0) (hs : sdC ≠ 0)
    (hs' : sdT ≠ 0) (qs : List (List ℝ × List ℝ)) {X Y Z : Iso} (hX : X.IsRigid) (hY : Y.IsRigid) (hZ : Z.IsRigid) {e : ℝ} (he : 0 < e) :
    ∃ r : ℝ, 0 < r ∧ ∀ r' ≤ r, ∀ (k' : Calib) (obs : List KinMeas), k'.Rigid → k'.offC.length = cc.transforms.length →
      k'.offT.length = tc.transforms.length → jointsOf6 obs = qs →
      (∀ m ∈ obs, RigidMotion m.cameraToTarget ∧ Spec.Close r' m.cameraToTarget
        ((plainCalib cc tc X Y Z).predicts cc tc m.cameraJoints m.targetJoints)) →
      misfit6 cc tc w obs k' + k'.offsetCosts sdC sdT ≤ r → NearlyEnough r' cc tc qs (plainCalib cc tc X Y Z) k' →
      CloseCalib e k' (plainCalib cc tc X Y Z) := by
  obtain ⟨r1, p1, h1⟩ := near_calib hcc htc qs hX hY hZ he
  obtain ⟨r2, p2, h2⟩ := offsets_of_cost hs hs' p1
  obtain ⟨r3, p3, h3⟩ := uniform_bound (fun (q : List ℝ × List ℝ) r => ∀ r' ≤ r, ∀ X' T : Iso, X'.IsRigid → T.IsRigid →
    Spec.Close r' X' ((plainCalib cc tc X Y Z).predicts cc tc q.1 q.2) → poseMisfit w X' T ≤ r' →
    Spec.Close r1 T ((plainCalib cc tc X Y Z).predicts cc tc q.1 q.2)) (fun q r r' h hle r'' hr => h r'' (hr.trans hle)) qs
    (fun q _ => misfit_close hw p1)
  obtain ⟨r, hr, l1, l2, l3⟩ : ∃ r : ℝ, 0 < r ∧ r ≤ r1 ∧ r ≤ r2 ∧ r ≤ r3 :=
    ⟨min r1 (min r2 r3), by simp [p1, p2, p3], by simp, by simp, by simp⟩
  refine ⟨r, hr, fun r' hr' k' obs hk hlc hlt hj hm hcost hE => h1 k' ⟨hk, hlc, hlt, h2 k' ?_, ?_⟩ ?_⟩
  · have : 0 ≤ misfit6 cc tc w obs k' := List.sum_nonneg fun x hx => by
      obtain ⟨m, -, rfl⟩ := List.mem_map.1 hx
      exact poseMisfit_nonneg' _ _ _
    linarith
  · intro q hq
    have hq' := hq
    rw [← hj] at hq
    obtain ⟨m, hmo, rfl⟩ := List.mem_map.1 hq
    refine h3 _ hq' r l3 m.cameraToTarget _ ((rigid_iff _).2 (hm m hmo).1)
      (predicts_rigid ((rigid_iff _).1 hcc) ((rigid_iff _).1 htc) (k := k') hk _ _) ((hm m hmo).2.mono hr') ?_
    have k1 := sum_member (f := fun m : KinMeas => poseMisfit w m.cameraToTarget (k'.predicts cc tc m.cameraJoints m.targetJoints))
      (fun m => poseMisfit_nonneg' _ _ _) hmo
    have k2 := offsetCost_nonneg sdC k'.offC
    have k3 := offsetCost_nonneg sdT k'.offT
    have k4 : misfit6 cc tc w obs k' ≤ r := by unfold Calib.offsetCosts at hcost; linarith
    exact k1.trans k4
  · cases hE with
    | camera h ht => exact .camera (h.mono (hr'.trans l1)) ht
    | target h ht => exact .target (h.mono (hr'.trans l1)) ht
    | base h ht => exact .base (h.mono (hr'.trans l1)) ht
    | targetAlone ht hc => exact .targetAlone ht hc
    | cameraAlone hc ht => exact .cameraAlone hc ht

theorem cost_le {S F r : ℝ} {n N : ℕ} (hpos : (0 : ℝ) < n) (hn : (n : ℝ) ≤ N) (hr : 0 < r) (hF : F = S / 2 / n)
    (hle : F ≤ r / (2 * N + 1)) : S ≤ r := by
  have e1 : S = 2 * n * F := by rw [hF]; field_simp
  have h2 : F * (2 * N + 1) ≤ r := by rwa [le_div_iff₀ (by positivity)] at hle
  rw [e1]
  rcases le_or_gt 0 F with h3 | h3
  · nlinarith
  · nlinarith

/-! ### C222 -/

/-- For every accuracy there is a bound on the errors of the measured poses and on the final cost that guarantees it for the
three transforms and the offsets that are reported, if the joint values are enough. -/
theorem C222_poses (cc tc : DHChain) (hcc : RigidMotion cc.base) (htc : RigidMotion tc.base) (w sdC sdT : ℝ) (hw : w ≠ 0)
    (hs : sdC ≠ 0) (hs' : sdT ≠ 0) (qs : List (List ℝ × List ℝ)) (cm tm cb : Iso) (hcm : RigidMotion cm) (htm : RigidMotion tm)
    (hcb : RigidMotion cb) (e : ℝ) (he : 0 < e) :
    ∃ r : ℝ, 0 < r ∧ ∀ (K : KCeres) (p : KinProblem) (obs : List KinMeas) (res : KinResult) (F : ℝ), K.WF → p.cameraChain = cc →
      p.targetChain = tc → p.cameraStdev = sdC → p.targetStdev = sdT → kinematic6 K p w obs = .ok res → jointsOf6 obs = qs →
      (∀ m ∈ obs, RigidMotion m.cameraToTarget ∧
        Spec.Close r m.cameraToTarget ((plainCalib cc tc cm tm cb).predicts cc tc m.cameraJoints m.targetJoints)) →
      NearlyEnough r cc tc qs (plainCalib cc tc cm tm cb) (calibOf res) → res.finalCost = some F → F ≤ r →
      CloseCalib e (calibOf res) (plainCalib cc tc cm tm cb) := by
  obtain ⟨r, hr, hnear⟩ := near_poses ((rigid_iff _).2 hcc) ((rigid_iff _).2 htc) hw hs hs' qs ((rigid_iff _).2 hcm)
    ((rigid_iff _).2 htm) ((rigid_iff _).2 hcb) he
  obtain ⟨N, hN⟩ : ∃ N : ℕ, N = 4 * qs.length + 4 * cc.transforms.length + 4 * tc.transforms.length := ⟨_, rfl⟩
  refine ⟨r / (2 * N + 1), by positivity, ?_⟩
  rintro K p obs res F hK rfl rfl rfl rfl h hj hm hE hF hle
  have hrr : r / (2 * N + 1) ≤ r := div_le_self hr.le (by have : (0 : ℝ) ≤ N := Nat.cast_nonneg N; linarith)
  obtain ⟨n, hpos, hn, hc⟩ := C47_cost6 K hK p w obs res hcc htc (fun m hmo => (hm m hmo).1) h
  have h' := h
  unfold kinematic6 at h'
  replace hpos : (0 : ℝ) < n := by
    obtain ⟨R⟩ := kinOptimize_ok hK h'
    have hne : obs ≠ [] := by have := R.ne; intro h; rw [h] at this; exact this rfl
    have := List.length_pos_iff.2 hne
    exact_mod_cast (by omega : 0 < n)
  obtain ⟨t1, t2, -, -⟩ := C47_tables K hK p _ res h'
  refine hnear _ hrr _ obs (C47_rigid K hK p _ res h') t1 t2 hj hm ?_ hE
  rw [hF, Option.some.injEq] at hc
  have hlen : obs.length = qs.length := by rw [← hj, jointsOf6, List.length_map]
  rw [hlen, ← hN] at hn
  have hn' : (n : ℝ) ≤ N := by exact_mod_cast hn
  have htot : F = (misfit6 p.cameraChain p.targetChain w obs (calibOf res) +
      (calibOf res).offsetCosts p.cameraStdev p.targetStdev) / 2 / n := by
    rw [hc, Calib.offsetCosts, ← add_assoc]
    rfl
  exact cost_le hpos hn' hr htot hle

/-- A result that fits the measured poses at least as well as the truth does needs no bound on the final cost. -/
theorem C222_poses_best (cc tc : DHChain) (hcc : RigidMotion cc.base) (htc : RigidMotion tc.base) (w sdC sdT : ℝ) (hw : w ≠ 0)
    (hs : sdC ≠ 0) (hs' : sdT ≠ 0) (qs : List (List ℝ × List ℝ)) (cm tm cb : Iso) (hcm : RigidMotion cm) (htm : RigidMotion tm)
    (hcb : RigidMotion cb) (e : ℝ) (he : 0 < e) :
    ∃ r : ℝ, 0 < r ∧ ∀ (K : KCeres) (p : KinProblem) (obs : List KinMeas) (res : KinResult), K.WF → p.cameraChain = cc →
      p.targetChain = tc → p.cameraStdev = sdC → p.targetStdev = sdT → kinematic6 K p w obs = .ok res → jointsOf6 obs = qs →
      (∀ m ∈ obs, RigidMotion m.cameraToTarget ∧
        Spec.Close r m.cameraToTarget ((plainCalib cc tc cm tm cb).predicts cc tc m.cameraJoints m.targetJoints)) →
      NearlyEnough r cc tc qs (plainCalib cc tc cm tm cb) (calibOf res) →
      misfit6 cc tc w obs (calibOf res) + (calibOf res).offsetCosts sdC sdT ≤ misfit6 cc tc w obs (plainCalib cc tc cm tm cb) →
      CloseCalib e (calibOf res) (plainCalib cc tc cm tm cb) := by
  obtain ⟨r, hr, hnear⟩ := near_poses ((rigid_iff _).2 hcc) ((rigid_iff _).2 htc) hw hs hs' qs ((rigid_iff _).2 hcm)
    ((rigid_iff _).2 htm) ((rigid_iff _).2 hcb) he
  obtain ⟨r1, p1, h1⟩ := uniform_bound (fun (q : List ℝ × List ℝ) ρ => ∀ r' ≤ ρ, ∀ X : Iso, X.IsRigid →
    Spec.Close r' X ((plainCalib cc tc cm tm cb).predicts cc tc q.1 q.2) →
    poseMisfit w X ((plainCalib cc tc cm tm cb).predicts cc tc q.1 q.2) ≤ r / (qs.length + 1))
    (fun q r r' h hle r'' hr => h r'' (hr.trans hle)) qs
    (fun q _ => truth_misfit (predicts_rigid hcc htc (k := plainCalib cc tc cm tm cb) ⟨hcm, htm, hcb⟩ _ _) w (by positivity))
  refine ⟨min r r1, lt_min hr p1, ?_⟩
  rintro K p obs res hK rfl rfl rfl rfl h hj hm hE hfit
  have h' := h
  unfold kinematic6 at h'
  obtain ⟨t1, t2, -, -⟩ := C47_tables K hK p _ res h'
  refine hnear _ (min_le_left _ _) _ obs (C47_rigid K hK p _ res h') t1 t2 hj hm (hfit.trans ?_) hE
  have hsum : misfit6 p.cameraChain p.targetChain w obs (plainCalib p.cameraChain p.targetChain cm tm cb) ≤
      obs.length * (r / (qs.length + 1)) := by
    unfold misfit6
    rw [← nsmul_eq_mul, ← List.length_map (as := obs)]
    refine List.sum_le_card_nsmul _ _ fun x hx => ?_
    obtain ⟨m, hmo, rfl⟩ := List.mem_map.1 hx
    refine h1 (m.cameraJoints, m.targetJoints) (by rw [← hj]; exact List.mem_map.2 ⟨m, hmo, rfl⟩) _ (min_le_right _ _) _
      ((rigid_iff _).2 (hm m hmo).1) (hm m hmo).2
  refine hsum.trans ?_
  have hlen : obs.length = qs.length := by rw [← hj, jointsOf6, List.length_map]
  rw [hlen, mul_div_assoc', div_le_iff₀ (by positivity)]
  nlinarith [Nat.cast_nonneg (α := ℝ) qs.length]

/-- In particular if the optimization starts at the truth. -/
theorem C222_poses_from_truth (cc tc : DHChain) (hcc : RigidMotion cc.base) (htc : RigidMotion tc.base) (w sdC sdT : ℝ) (hw : w ≠ 0)
    (hs : sdC ≠ 0) (hs' : sdT ≠ 0) (qs : List (List ℝ × List ℝ)) (cm tm cb : Iso) (hcm : KinRepresentable cm)
    (htm : KinRepresentable tm) (hcb : KinRepresentable cb) (e : ℝ) (he : 0 < e) :
    ∃ r : ℝ, 0 < r ∧ ∀ (K : KCeres) (p : KinProblem) (obs : List KinMeas) (res : KinResult), K.WF → p.cameraChain = cc →
      p.targetChain = tc → p.cameraStdev = sdC → p.targetStdev = sdT → p.cmToC = cm → p.tmToT = tm → p.cbToTb = cb →
      kinematic6 K p w obs = .ok res → jointsOf6 obs = qs →
      (∀ m ∈ obs, RigidMotion m.cameraToTarget ∧
        Spec.Close r m.cameraToTarget ((plainCalib cc tc cm tm cb).predicts cc tc m.cameraJoints m.targetJoints)) →
      NearlyEnough r cc tc qs (plainCalib cc tc cm tm cb) (calibOf res) → CloseCalib e (calibOf res) (plainCalib cc tc cm tm cb) := by
  obtain ⟨r, hr, hbest⟩ := C222_poses_best cc tc hcc htc w sdC sdT hw hs hs' qs cm tm cb hcm.1 htm.1 hcb.1 e he
  refine ⟨r, hr, ?_⟩
  rintro K p obs res hK rfl rfl rfl rfl rfl rfl rfl h hj hm hE
  exact hbest K p obs res hK rfl rfl rfl rfl h hj hm hE
    (C175_poses K hK p w obs res hcc htc (fun m hmo => (hm m hmo).1) hcm htm hcb h)

/-- Masking a transform makes it known: the mount has only to be guessed to within the bound. -/
theorem C222_masked (cc tc : DHChain) (hcc : RigidMotion cc.base) (htc : RigidMotion tc.base) (w sdC sdT : ℝ) (hw : w ≠ 0)
    (hs : sdC ≠ 0) (hs' : sdT ≠ 0) (qs : List (List ℝ × List ℝ)) (cm tm cb : Iso) (hcm : RigidMotion cm) (htm : RigidMotion tm)
    (hcb : RigidMotion cb) (e : ℝ) (he : 0 < e) :
    ∃ r : ℝ, 0 < r ∧ ∀ (K : KCeres) (p : KinProblem) (obs : List KinMeas) (res : KinResult) (F : ℝ), K.WF → p.cameraChain = cc →
      p.targetChain = tc → p.cameraStdev = sdC → p.targetStdev = sdT → kinematic6 K p w obs = .ok res → jointsOf6 obs = qs →
      (∀ m ∈ obs, RigidMotion m.cameraToTarget ∧
        Spec.Close r m.cameraToTarget ((plainCalib cc tc cm tm cb).predicts cc tc m.cameraJoints m.targetJoints)) →
      ((∀ j : Fin 3, (j.val : Int) ∈ p.masks 2 ∧ (j.val : Int) ∈ p.masks 3) ∧ KinRepresentable p.cmToC ∧
          Spec.Close r p.cmToC cm ∧ TargetTurns tc qs ∨
        (∀ j : Fin 3, (j.val : Int) ∈ p.masks 4 ∧ (j.val : Int) ∈ p.masks 5) ∧ KinRepresentable p.tmToT ∧
          Spec.Close r p.tmToT tm ∧ CameraTurns cc qs ∨
        (∀ j : Fin 3, (j.val : Int) ∈ p.masks 6 ∧ (j.val : Int) ∈ p.masks 7) ∧ KinRepresentable p.cbToTb ∧
          Spec.Close r p.cbToTb cb ∧ RelativeTurns cc tc cb qs) →
      res.finalCost = some F → F ≤ r → CloseCalib e (calibOf res) (plainCalib cc tc cm tm cb) := by
  obtain ⟨r, hr, hcl⟩ := C222_poses cc tc hcc htc w sdC sdT hw hs hs' qs cm tm cb hcm htm hcb e he
  refine ⟨r, hr, ?_⟩
  rintro K p obs res F hK rfl rfl rfl rfl h hj hm hknown hF hle
  refine hcl K p obs res F hK rfl rfl rfl rfl h hj hm ?_ hF hle
  have h' := h
  unfold kinematic6 at h'
  have hp := C46_positions_frozen K hK p _ res h'
  have hr := C46_rotations_frozen K hK p _ res h'
  have v3 : ∀ {u v : V3}, (∀ j : Fin 3, vcomp u j = vcomp v j) → u = v := fun e => V3.ext (e 0) (e 1) (e 2)
  rcases hknown with ⟨hm, hrep, hcl, ht⟩ | ⟨hm, hrep, hcl, ht⟩ | ⟨hm, hrep, hcl, ht⟩
  · have e1 : res.cmToC = p.cmToC := Iso.ext (hr.1 (fun j => (hm j).2) hrep) (v3 fun j => (hp j).1 (hm j).1)
    exact .camera (by rw [← e1] at hcl; exact hcl) ht
  · have e1 : res.tmToT = p.tmToT := Iso.ext (hr.2.1 (fun j => (hm j).2) hrep) (v3 fun j => (hp j).2.1 (hm j).1)
    exact .target (by rw [← e1] at hcl; exact hcl) ht
  · have e1 : res.cbToTb = p.cbToTb := Iso.ext (hr.2.2 (fun j => (hm j).2) hrep) (v3 fun j => (hp j).2.2 (hm j).1)
    exact .base (by rw [← e1] at hcl; exact hcl) ht

/-! ### Images -/

/-- Images with little noise that a calibration nearly explains. -/
theorem near_images {cc tc : DHChain} (hcc : cc.base.IsRigid) (htc : tc.base.IsRigid) {i : Intr} (hfx : i.fx ≠ 0) (hfy : i.fy ≠ 0)
    {sdC sdT : ℝ} (hs : sdC ≠ 0) (hs' : sdT ≠ 0) (setup good : List KinObs) {X Y Z : Iso} (hX : X.IsRigid) (hY : Y.IsRigid)
    (hZ : Z.IsRigid)
    (hz : ∀ o ∈ setup, ∀ c ∈ o.correspondences,
      0 < (((plainCalib cc tc X Y Z).predicts cc tc o.cameraJoints o.targetJoints).apply c.inTarget).z)
    (hgood : ∀ o ∈ good, o ∈ setup ∧ SeesQuadrangle o.correspondences ∧
      ((plainCalib cc tc X Y Z).predicts cc tc o.cameraJoints o.targetJoints).inv.t.z ≠ 0) {e : ℝ} (he : 0 < e) :
    ∃ r : ℝ, 0 < r ∧ ∀ r' ≤ r, ∀ (k' : Calib) (obs : List KinObs), k'.Rigid → k'.offC.length = cc.transforms.length →
      k'.offT.length = tc.transforms.length → List.Forall₂ SameImage setup obs →
      (∀ o ∈ obs, PixelNoise r' o.correspondences (fun c => c.inImage)
        fun c => pinhole i (((plainCalib cc tc X Y Z).predicts cc tc o.cameraJoints o.targetJoints).apply c.inTarget)) →
      (∀ o ∈ obs, ∀ c ∈ o.correspondences, 0 < ((k'.predicts cc tc o.cameraJoints o.targetJoints).apply c.inTarget).z) →
      misfit2 cc tc i obs k' + k'.offsetCosts sdC sdT ≤ r → NearlyEnough r' cc tc (jointsOf2 good) (plainCalib cc tc X Y Z) k' →
      CloseCalib e k' (plainCalib cc tc X Y Z) := by
  obtain ⟨r1, p1, h1⟩ := near_calib hcc htc (jointsOf2 good) hX hY hZ he
  obtain ⟨r2, p2, h2⟩ := offsets_of_cost hs hs' p1
  obtain ⟨d, hd, h3⟩ := uniform_bound (fun (o : KinObs) ρ => ∀ S : Iso, S.IsRigid → (∀ c ∈ o.correspondences, 0 < (S.apply c.inTarget).z ∧
      |(pinhole i (S.apply c.inTarget)).x -
        (pinhole i (((plainCalib cc tc X Y Z).predicts cc tc o.cameraJoints o.targetJoints).apply c.inTarget)).x| ≤ ρ ∧
      |(pinhole i (S.apply c.inTarget)).y -
        (pinhole i (((plainCalib cc tc X Y Z).predicts cc tc o.cameraJoints o.targetJoints).apply c.inTarget)).y| ≤ ρ) →
      Spec.Close r1 S ((plainCalib cc tc X Y Z).predicts cc tc o.cameraJoints o.targetJoints))
    (fun o r r' h hle S hS hall => h S hS fun c hc => ⟨(hall c hc).1, (hall c hc).2.1.trans hle, (hall c hc).2.2.trans hle⟩) good (by
      intro o ho
      obtain ⟨ho1, ⟨u, hu, v, hv, w, hw, x, hx, hquad⟩, hcam⟩ := hgood o ho
      have rT := predicts_rigid ((rigid_iff _).1 hcc) ((rigid_iff _).1 htc) (k := plainCalib cc tc X Y Z)
        ⟨(rigid_iff _).1 hX, (rigid_iff _).1 hY, (rigid_iff _).1 hZ⟩ o.cameraJoints o.targetJoints
      have hpos := hz o ho1
      generalize (plainCalib cc tc X Y Z).predicts cc tc o.cameraJoints o.targetJoints = T at *
      have hmem : ∀ k ∈ [u.inTarget, v.inTarget, w.inTarget, x.inTarget], ∃ c ∈ o.correspondences, c.inTarget = k := by
        intro k hk
        simp only [List.mem_cons, List.not_mem_nil, or_false] at hk
        rcases hk with rfl | rfl | rfl | rfl
        exacts [⟨u, hu, rfl⟩, ⟨v, hv, rfl⟩, ⟨w, hw, rfl⟩, ⟨x, hx, rfl⟩]
      obtain ⟨r, hr, hst⟩ := planar_stable hfx hfy rT hquad hcam (fun k hk => by
        obtain ⟨c, hc, rfl⟩ := hmem k hk
        exact hpos c hc) p1
      refine ⟨r, hr, fun S hS hall => hst S hS fun k hk => ?_⟩
      obtain ⟨c, hc, rfl⟩ := hmem k hk
      exact hall c hc)
  obtain ⟨r, hr, l1, l2, l3, l4⟩ : ∃ r : ℝ, 0 < r ∧ r ≤ r1 ∧ r ≤ r2 ∧ r ≤ d / 2 ∧ r ≤ (d / 2) ^ 2 :=
    ⟨min (min r1 r2) (min (d / 2) ((d / 2) ^ 2)), by
      refine lt_min (lt_min p1 p2) (lt_min (by linarith) (by positivity)), by simp, by simp, by simp, by simp⟩
  refine ⟨r, hr, fun r' hr' k' obs hk hlc hlt hsame hnoise hfront hcost hE => h1 k' ⟨hk, hlc, hlt, h2 k' ?_, ?_⟩ ?_⟩
  · have := misfit2_nonneg cc tc i obs k'
    linarith
  · intro q hq
    obtain ⟨o, ho, rfl⟩ := List.mem_map.1 hq
    obtain ⟨o', ho', s1, s2, s3⟩ := forall₂_mem hsame (hgood o ho).1
    simp only
    refine h3 o ho _ (predicts_rigid ((rigid_iff _).1 hcc) ((rigid_iff _).1 htc) (k := k') hk _ _) fun c hc => ?_
    have hc' : c.inTarget ∈ o'.correspondences.map fun k => k.inTarget := by
      rw [← s3]; exact List.mem_map.2 ⟨c, hc, rfl⟩
    obtain ⟨c', hc', e1⟩ := List.mem_map.1 hc'
    rw [s1, s2, ← e1]
    refine ⟨hfront o' ho' c' hc', ?_⟩
    obtain ⟨n1, n2⟩ := hnoise o' ho' c' hc'
    have k1 : pixelMisfit i (k'.predicts cc tc o'.cameraJoints o'.targetJoints) c' ≤ (d / 2) ^ 2 := by
      have a1 := sum_member (f := fun c => pixelMisfit i (k'.predicts cc tc o'.cameraJoints o'.targetJoints) c)
        (fun c => pixelMisfit_nonneg _ _ _) hc'
      have a2 := sum_member (f := fun o : KinObs => (o.correspondences.map fun c =>
        pixelMisfit i (k'.predicts cc tc o.cameraJoints o.targetJoints) c).sum) (fun o => List.sum_nonneg fun x hx => by
          obtain ⟨y, -, rfl⟩ := List.mem_map.1 hx
          exact pixelMisfit_nonneg _ _ _) ho'
      have k2 := offsetCost_nonneg sdC k'.offC
      have k3 := offsetCost_nonneg sdT k'.offT
      have k4 : misfit2 cc tc i obs k' ≤ r := by unfold Calib.offsetCosts at hcost; linarith
      exact ((a1.trans a2).trans k4).trans l4
    unfold pixelMisfit at k1
    have b1 := abs_le_of_sq_le_sq (show ((pinhole i ((k'.predicts cc tc o'.cameraJoints o'.targetJoints).apply c'.inTarget)).x -
      c'.inImage.x) ^ 2 ≤ (d / 2) ^ 2 by
        nlinarith [sq_nonneg ((pinhole i ((k'.predicts cc tc o'.cameraJoints o'.targetJoints).apply c'.inTarget)).y - c'.inImage.y)])
      (by linarith)
    have b2 := abs_le_of_sq_le_sq (show ((pinhole i ((k'.predicts cc tc o'.cameraJoints o'.targetJoints).apply c'.inTarget)).y -
      c'.inImage.y) ^ 2 ≤ (d / 2) ^ 2 by
        nlinarith [sq_nonneg ((pinhole i ((k'.predicts cc tc o'.cameraJoints o'.targetJoints).apply c'.inTarget)).x - c'.inImage.x)])
      (by linarith)
    constructor
    · exact (abs_sub_le _ c'.inImage.x _).trans (by linarith)
    · exact (abs_sub_le _ c'.inImage.y _).trans (by linarith)
  · cases hE with
    | camera h ht => exact .camera (h.mono (hr'.trans l1)) ht
    | target h ht => exact .target (h.mono (hr'.trans l1)) ht
    | base h ht => exact .base (h.mono (hr'.trans l1)) ht
    | targetAlone ht hc => exact .targetAlone ht hc
    | cameraAlone hc ht => exact .cameraAlone hc ht

theorem sameImages_length {l l' : List KinObs} (h : List.Forall₂ SameImage l l') :
    (l.map fun o => o.correspondences.length).sum = (l'.map fun o => o.correspondences.length).sum := by
  induction h with
  | nil => rfl
  | cons h1 _ ih =>
    have := congrArg List.length h1.2.2
    simp only [List.length_map] at this
    rw [List.map_cons, List.map_cons, List.sum_cons, List.sum_cons, ih, this]

/-- For every accuracy there is a bound on the pixel noise and on the final cost that guarantees it for the three transforms and
the offsets that are reported, if the joint values of images that show four features of the plane of the target, no three of them
on one line, to a camera outside this plane are enough. -/
theorem C222_pixels (cc tc : DHChain) (hcc : RigidMotion cc.base) (htc : RigidMotion tc.base) (i : Intr) (hfx : i.fx ≠ 0)
    (hfy : i.fy ≠ 0) (sdC sdT : ℝ) (hs : sdC ≠ 0) (hs' : sdT ≠ 0) (setup good : List KinObs) (cm tm cb : Iso)
    (hcm : RigidMotion cm) (htm : RigidMotion tm) (hcb : RigidMotion cb)
    (hz : ∀ o ∈ setup, ∀ c ∈ o.correspondences,
      0 < (((plainCalib cc tc cm tm cb).predicts cc tc o.cameraJoints o.targetJoints).apply c.inTarget).z)
    (hgood : ∀ o ∈ good, o ∈ setup ∧ SeesQuadrangle o.correspondences ∧
      ((plainCalib cc tc cm tm cb).predicts cc tc o.cameraJoints o.targetJoints).inv.t.z ≠ 0) (e : ℝ) (he : 0 < e) :
    ∃ r : ℝ, 0 < r ∧ ∀ (K : KCeres) (p : KinProblem) (obs : List KinObs) (res : KinResult) (F : ℝ), K.WF → p.cameraChain = cc →
      p.targetChain = tc → p.cameraStdev = sdC → p.targetStdev = sdT → kinematic2 K p i obs = .ok res →
      List.Forall₂ SameImage setup obs →
      (∀ o ∈ obs, PixelNoise r o.correspondences (fun c => c.inImage)
        fun c => pinhole i (((plainCalib cc tc cm tm cb).predicts cc tc o.cameraJoints o.targetJoints).apply c.inTarget)) →
      (∀ o ∈ obs, ∀ c ∈ o.correspondences,
        (((calibOf res).predicts cc tc o.cameraJoints o.targetJoints).apply c.inTarget).z > 1 / 10 ^ 10) →
      NearlyEnough r cc tc (jointsOf2 good) (plainCalib cc tc cm tm cb) (calibOf res) → res.finalCost = some F → F ≤ r →
      CloseCalib e (calibOf res) (plainCalib cc tc cm tm cb) := by
  obtain ⟨r, hr, hnear⟩ := near_images ((rigid_iff _).2 hcc) ((rigid_iff _).2 htc) hfx hfy hs hs' setup good ((rigid_iff _).2 hcm)
    ((rigid_iff _).2 htm) ((rigid_iff _).2 hcb) hz hgood he
  obtain ⟨N, hN⟩ : ∃ N : ℕ, N = 2 * (setup.map fun o => o.correspondences.length).sum + 4 * cc.transforms.length +
    4 * tc.transforms.length := ⟨_, rfl⟩
  refine ⟨r / (2 * N + 1), by positivity, ?_⟩
  rintro K p obs res F hK rfl rfl rfl rfl h hsame hm hz' hE hF hle
  have hrr : r / (2 * N + 1) ≤ r := div_le_self hr.le (by have : (0 : ℝ) ≤ N := Nat.cast_nonneg N; linarith)
  obtain ⟨n, hpos, hn, hc⟩ := C47_cost2 K hK p i obs res h hz'
  have h' := h
  unfold kinematic2 at h'
  rw [← sameImages_length hsame] at hpos hn
  replace hpos : (0 : ℝ) < n := by
    obtain ⟨q, hq⟩ : ∃ q, q ∈ jointsOf2 good := by
      cases hE with
      | camera _ ht => exact ⟨_, ht.choose_spec.1⟩
      | target _ ht => exact ⟨_, ht.choose_spec.1⟩
      | base _ ht => exact ⟨_, ht.choose_spec.1⟩
      | targetAlone ht _ => exact ⟨_, ht.choose_spec.1⟩
      | cameraAlone ht _ => exact ⟨_, ht.choose_spec.1⟩
    obtain ⟨o, ho, -⟩ := List.mem_map.1 hq
    obtain ⟨h1, ⟨a, ha, -⟩, -⟩ := hgood o ho
    have h2 : o.correspondences.length ≤ (setup.map fun o => o.correspondences.length).sum :=
      List.single_le_sum (by simp) _ (List.mem_map.2 ⟨o, h1, rfl⟩)
    have h3 := List.length_pos_of_mem ha
    exact_mod_cast (by omega : 0 < n)
  obtain ⟨t1, t2, -, -⟩ := C47_tables K hK p _ res h'
  refine hnear _ hrr _ obs (C47_rigid K hK p _ res h') t1 t2 hsame hm (fun o ho c hc => lt_trans (by norm_num) (hz' o ho c hc)) ?_ hE
  rw [hF, Option.some.injEq] at hc
  rw [← hN] at hn
  have hn' : (n : ℝ) ≤ N := by exact_mod_cast hn
  have htot : F = (misfit2 p.cameraChain p.targetChain i obs (calibOf res) +
      (calibOf res).offsetCosts p.cameraStdev p.targetStdev) / 2 / n := by
    rw [hc, Calib.offsetCosts, ← add_assoc]
    rfl
  exact cost_le hpos hn' hr htot hle

/-- A result that fits the images at least as well as the truth does needs no bound on the final cost. -/
theorem C222_pixels_best (cc tc : DHChain) (hcc : RigidMotion cc.base) (htc : RigidMotion tc.base) (i : Intr) (hfx : i.fx ≠ 0)
    (hfy : i.fy ≠ 0) (sdC sdT : ℝ) (hs : sdC ≠ 0) (hs' : sdT ≠ 0) (setup good : List KinObs) (cm tm cb : Iso)
    (hcm : RigidMotion cm) (htm : RigidMotion tm) (hcb : RigidMotion cb)
    (hz : ∀ o ∈ setup, ∀ c ∈ o.correspondences,
      0 < (((plainCalib cc tc cm tm cb).predicts cc tc o.cameraJoints o.targetJoints).apply c.inTarget).z)
    (hgood : ∀ o ∈ good, o ∈ setup ∧ SeesQuadrangle o.correspondences ∧
      ((plainCalib cc tc cm tm cb).predicts cc tc o.cameraJoints o.targetJoints).inv.t.z ≠ 0) (e : ℝ) (he : 0 < e) :
    ∃ r : ℝ, 0 < r ∧ ∀ (K : KCeres) (p : KinProblem) (obs : List KinObs) (res : KinResult), K.WF → p.cameraChain = cc →
      p.targetChain = tc → p.cameraStdev = sdC → p.targetStdev = sdT → kinematic2 K p i obs = .ok res →
      List.Forall₂ SameImage setup obs →
      (∀ o ∈ obs, PixelNoise r o.correspondences (fun c => c.inImage)
        fun c => pinhole i (((plainCalib cc tc cm tm cb).predicts cc tc o.cameraJoints o.targetJoints).apply c.inTarget)) →
      (∀ o ∈ obs, ∀ c ∈ o.correspondences,
        (((calibOf res).predicts cc tc o.cameraJoints o.targetJoints).apply c.inTarget).z > 1 / 10 ^ 10) →
      NearlyEnough r cc tc (jointsOf2 good) (plainCalib cc tc cm tm cb) (calibOf res) →
      misfit2 cc tc i obs (calibOf res) + (calibOf res).offsetCosts sdC sdT ≤ misfit2 cc tc i obs (plainCalib cc tc cm tm cb) →
      CloseCalib e (calibOf res) (plainCalib cc tc cm tm cb) := by
  obtain ⟨r, hr, hnear⟩ := near_images ((rigid_iff _).2 hcc) ((rigid_iff _).2 htc) hfx hfy hs hs' setup good ((rigid_iff _).2 hcm)
    ((rigid_iff _).2 htm) ((rigid_iff _).2 hcb) hz hgood he
  obtain ⟨N, hN⟩ : ∃ N : ℕ, N = (setup.map fun o => o.correspondences.length).sum := ⟨_, rfl⟩
  obtain ⟨d, hd, l1, l2, l3⟩ : ∃ d : ℝ, 0 < d ∧ d ≤ r ∧ d ≤ 1 ∧ d ≤ r / (2 * N + 1) :=
    ⟨min r (min 1 (r / (2 * N + 1))), lt_min hr (lt_min one_pos (by positivity)), by simp, by simp, by simp⟩
  refine ⟨d, hd, ?_⟩
  rintro K p obs res hK rfl rfl rfl rfl h hsame hm hz' hE hfit
  have h' := h
  unfold kinematic2 at h'
  obtain ⟨t1, t2, -, -⟩ := C47_tables K hK p _ res h'
  refine hnear _ l1 _ obs (C47_rigid K hK p _ res h') t1 t2 hsame hm (fun o ho c hc => lt_trans (by norm_num) (hz' o ho c hc))
    (hfit.trans ?_) hE
  have hsum : misfit2 p.cameraChain p.targetChain i obs (plainCalib p.cameraChain p.targetChain cm tm cb) ≤ N * (2 * d ^ 2) := by
    rw [hN, sameImages_length hsame]
    unfold misfit2
    clear hsame hE hfit hz' h h'
    induction obs with
    | nil => simp
    | cons o l ih =>
      rw [List.map_cons, List.map_cons, List.sum_cons, List.sum_cons, Nat.cast_add, add_mul]
      refine add_le_add ?_ (ih fun o ho => hm o (List.mem_cons_of_mem _ ho))
      rw [← nsmul_eq_mul, ← List.length_map (as := o.correspondences)]
      refine List.sum_le_card_nsmul _ _ fun x hx => ?_
      obtain ⟨c, hc, rfl⟩ := List.mem_map.1 hx
      obtain ⟨n1, n2⟩ := hm o List.mem_cons_self c hc
      unfold pixelMisfit
      have q1 := sq_le_sq' (by linarith [(abs_le.1 n1).1]) (abs_le.1 n1).2
      have q2 := sq_le_sq' (by linarith [(abs_le.1 n2).1]) (abs_le.1 n2).2
      nlinarith
  refine hsum.trans ?_
  rw [le_div_iff₀ (by positivity)] at l3
  nlinarith [Nat.cast_nonneg (α := ℝ) N, mul_nonneg (Nat.cast_nonneg (α := ℝ) N) hd.le]

/-- In particular if the optimization starts at the truth. -/
theorem C222_pixels_from_truth (cc tc : DHChain) (hcc : RigidMotion cc.base) (htc : RigidMotion tc.base) (i : Intr) (hfx : i.fx ≠ 0)
    (hfy : i.fy ≠ 0) (sdC sdT : ℝ) (hs : sdC ≠ 0) (hs' : sdT ≠ 0) (setup good : List KinObs) (cm tm cb : Iso)
    (hcm : KinRepresentable cm) (htm : KinRepresentable tm) (hcb : KinRepresentable cb)
    (hz : ∀ o ∈ setup, ∀ c ∈ o.correspondences,
      (((plainCalib cc tc cm tm cb).predicts cc tc o.cameraJoints o.targetJoints).apply c.inTarget).z > 1 / 10 ^ 10)
    (hgood : ∀ o ∈ good, o ∈ setup ∧ SeesQuadrangle o.correspondences ∧
      ((plainCalib cc tc cm tm cb).predicts cc tc o.cameraJoints o.targetJoints).inv.t.z ≠ 0) (e : ℝ) (he : 0 < e) :
    ∃ r : ℝ, 0 < r ∧ ∀ (K : KCeres) (p : KinProblem) (obs : List KinObs) (res : KinResult), K.WF → p.cameraChain = cc →
      p.targetChain = tc → p.cameraStdev = sdC → p.targetStdev = sdT → p.cmToC = cm → p.tmToT = tm → p.cbToTb = cb →
      kinematic2 K p i obs = .ok res → List.Forall₂ SameImage setup obs →
      (∀ o ∈ obs, PixelNoise r o.correspondences (fun c => c.inImage)
        fun c => pinhole i (((plainCalib cc tc cm tm cb).predicts cc tc o.cameraJoints o.targetJoints).apply c.inTarget)) →
      (∀ o ∈ obs, ∀ c ∈ o.correspondences,
        (((calibOf res).predicts cc tc o.cameraJoints o.targetJoints).apply c.inTarget).z > 1 / 10 ^ 10) →
      NearlyEnough r cc tc (jointsOf2 good) (plainCalib cc tc cm tm cb) (calibOf res) →
      CloseCalib e (calibOf res) (plainCalib cc tc cm tm cb) := by
  obtain ⟨r, hr, hbest⟩ := C222_pixels_best cc tc hcc htc i hfx hfy sdC sdT hs hs' setup good cm tm cb hcm.1 htm.1 hcb.1
    (fun o ho c hc => lt_trans (by norm_num) (hz o ho c hc)) hgood e he
  refine ⟨r, hr, ?_⟩
  rintro K p obs res hK rfl rfl rfl rfl rfl rfl rfl h hsame hm hz' hE
  refine hbest K p obs res hK rfl rfl rfl rfl h hsame hm hz' hE (C175_pixels K hK p i obs res hcm htm hcb h ?_)
  intro k hk o ho c hc
  simp only [List.mem_cons, List.not_mem_nil, or_false] at hk
  rcases hk with rfl | rfl
  · obtain ⟨o', ho', s1, s2, s3⟩ := forall₂_mem hsame.flip ho
    have hc' : c.inTarget ∈ o'.correspondences.map fun k => k.inTarget := by
      rw [s3]; exact List.mem_map.2 ⟨c, hc, rfl⟩
    obtain ⟨c', hc', e1⟩ := List.mem_map.1 hc'
    have := hz o' ho' c' hc'
    rw [s1, s2, e1] at this
    exact this
  · exact hz' o ho c hc

/-! ### Examples -/

theorem wrist_truth_rigid : (wristTruth 1).Rigid :=
  ⟨(rigid_iff _).1 Iso.IsRigid.one, (rigid_iff _).1 Iso.IsRigid.one, (shiftBy_rep _ _ _).1⟩

theorem wrist_stays {costs : List ((Nat → Mem) → Res (List ℝ))} {res : KinResult}
    (h : kinOptimize idKCeres wristProblem costs = .ok res) : calibOf res = wristTruth 1 := by
  obtain ⟨R⟩ := kinOptimize_ok idKCeres_wf h
  have hst : R.st = kinInit wristProblem := R.st_eq
  rw [← R.calibAt, hst]
  exact calibAt_init (p := wristProblem) kinRepresentable_one kinRepresentable_one (kinRepresentable_shift _ _ _)

theorem wrist_offsets : (wristTruth 1).offsetCosts wristProblem.cameraStdev wristProblem.targetStdev = 0 := by
  unfold Calib.offsetCosts wristTruth plainCalib offsetCost
  simp [wristChain]

theorem shift_misfit (t : ℝ) {P : Iso} (hP : P.IsRigid) : poseMisfit 1 (shiftBy t 0 0 * P) P = t ^ 2 := by
  unfold poseMisfit
  have e1 : (shiftBy t 0 0 * P).R * P.R.tr = 1 := by
    show (1 : M3) * P.R * P.R.tr = 1
    rw [M3.one_mul]
    exact congrArg Iso.R (Iso.mul_inv hP)
  rw [e1, Iso.mul_assoc, Iso.mul_inv hP, Iso.mul_one]
  have e2 : rotAngle 1 = 0 := by
    unfold rotAngle
    rw [show ((1 : M3).m00 + (1 : M3).m11 + (1 : M3).m22 - 1) / 2 = 1 by
      show ((1 : ℝ) + 1 + 1 - 1) / 2 = 1
      norm_num, Real.arccos_one]
  rw [e2]
  simp [shiftBy, V3.normSq, V3.dot]
  ring

theorem shift_close (t : ℝ) (P : Iso) : Spec.Close |t| (shiftBy t 0 0 * P) P := by
  intro q
  rw [Iso.apply_mul, shiftBy_apply]
  have e : (⟨(P.apply q).x + t, (P.apply q).y + 0, (P.apply q).z + 0⟩ : V3) - P.apply q = ⟨t, 0, 0⟩ := by ext <;> simp
  rw [e]
  have e2 : (⟨t, 0, 0⟩ : V3).norm = |t| := by simp [V3.norm, V3.normSq, V3.dot, Real.sqrt_mul_self_eq_abs]
  rw [e2]
  have := mul_nonneg (abs_nonneg t) q.norm_nonneg
  linarith

/-- For every `r`, runs on measured poses that are shifted by up to `r`, with a final cost of at most `r`, started at the truth. -/
example (r : ℝ) (hr : 0 < r) : ∃ (obs : List KinMeas) (res : KinResult) (F : ℝ), kinematic6 idKCeres wristProblem 1 obs = .ok res ∧
    wristProblem.cameraStdev ≠ 0 ∧ wristProblem.targetStdev ≠ 0 ∧ jointsOf6 obs = wristJoints ∧
    (∀ m ∈ obs, RigidMotion m.cameraToTarget ∧ Spec.Close r m.cameraToTarget
      ((wristTruth 1).predicts wristChain wristChain m.cameraJoints m.targetJoints)) ∧
    NearlyEnough r wristChain wristChain wristJoints (wristTruth 1) (calibOf res) ∧ res.finalCost = some F ∧ 0 < F ∧ F ≤ r ∧
    misfit6 wristChain wristChain 1 obs (calibOf res) + (calibOf res).offsetCosts wristProblem.cameraStdev wristProblem.targetStdev ≤
      misfit6 wristChain wristChain 1 obs (wristTruth 1) := by
  obtain ⟨t, ht⟩ : ∃ t, t = min r 1 := ⟨_, rfl⟩
  have t0 : 0 < t := by rw [ht]; exact lt_min hr one_pos
  have t1 : t ≤ 1 := by rw [ht]; exact min_le_right _ _
  have tr : t ≤ r := by rw [ht]; exact min_le_left _ _
  have rP : ∀ q : List ℝ × List ℝ, ((wristTruth 1).predicts wristChain wristChain q.1 q.2).IsRigid := fun q =>
    predicts_rigid ((rigid_iff _).1 wristChain_rigid) ((rigid_iff _).1 wristChain_rigid) (k := wristTruth 1) wrist_truth_rigid _ _
  obtain ⟨obs, hobs⟩ : ∃ obs : List KinMeas, obs = wristJoints.map fun q =>
    ⟨shiftBy t 0 0 * (wristTruth 1).predicts wristChain wristChain q.1 q.2, q.1, q.2⟩ := ⟨_, rfl⟩
  have hj : jointsOf6 obs = wristJoints := by rw [hobs, jointsOf6, List.map_map]; exact List.map_id _
  have hlen : obs.length = 5 := by rw [hobs, List.length_map]; rfl
  obtain ⟨res, hres⟩ : ∃ res, kinematic6 idKCeres wristProblem 1 obs = .ok res := by
    refine wrist_returns (by rw [hobs]; simp [wristJoints]) fun f hf => ?_
    obtain ⟨m, hm, rfl⟩ := List.mem_map.1 hf
    unfold kinCost6
    rw [kinCameraToTarget_eq, if_pos, Res.ok_bind]
    · exact ⟨_, rfl⟩
    · rw [hobs] at hm
      obtain ⟨q, hq, rfl⟩ := List.mem_map.1 hm
      simp only [wristJoints, List.mem_cons, List.not_mem_nil, or_false] at hq
      rcases hq with rfl | rfl | rfl | rfl | rfl <;> simp [wristProblem, wristChain, DHChain.dof]
  have hst := wrist_stays hres
  have hm : ∀ m ∈ obs, RigidMotion m.cameraToTarget ∧ Spec.Close r m.cameraToTarget
      ((wristTruth 1).predicts wristChain wristChain m.cameraJoints m.targetJoints) := by
    intro m hm
    rw [hobs] at hm
    obtain ⟨q, -, rfl⟩ := List.mem_map.1 hm
    exact ⟨(rigid_iff _).1 (((rigid_iff _).2 (shiftBy_rep _ _ _).1).mul (rP q)), (shift_close t _).mono (by rwa [abs_of_pos t0])⟩
  have hmis : misfit6 wristChain wristChain 1 obs (wristTruth 1) = 5 * t ^ 2 := by
    have hall : ∀ x ∈ obs.map (fun m => poseMisfit 1 m.cameraToTarget
        ((wristTruth 1).predicts wristChain wristChain m.cameraJoints m.targetJoints)), x = t ^ 2 := by
      intro x hx
      obtain ⟨m, hmo, rfl⟩ := List.mem_map.1 hx
      rw [hobs] at hmo
      obtain ⟨q, -, rfl⟩ := List.mem_map.1 hmo
      exact shift_misfit t (rP q)
    unfold misfit6
    rw [List.eq_replicate_of_mem hall, List.sum_replicate, List.length_map, hlen, nsmul_eq_mul]
    norm_num
  obtain ⟨n, hn, -, hc⟩ := C47_cost6 idKCeres idKCeres_wf wristProblem 1 obs res ((rigid_iff _).1 wristChain_rigid)
    ((rigid_iff _).1 wristChain_rigid) (fun m hmo => (hm m hmo).1) hres
  have hn' : (20 : ℝ) ≤ n := by rw [hlen] at hn; exact_mod_cast hn
  have hF : res.finalCost = some (5 * t ^ 2 / 2 / n) := by
    rw [hc]
    congr 3
    rw [← hmis, ← hst, ← add_zero (misfit6 _ _ _ _ _), ← wrist_offsets, ← hst, Calib.offsetCosts, ← add_assoc]
    rfl
  refine ⟨obs, res, _, hres, by norm_num [wristProblem], by norm_num [wristProblem], hj, hm,
    .targetAlone wrist_target_alone wrist_camera, hF, by positivity, ?_, ?_⟩
  · rw [div_le_iff₀ (by linarith)]
    nlinarith
  · rw [hst, wrist_offsets, add_zero]

/-- For every `r`, a run with a masked camera mount whose guess is wrong by up to `r`. -/
example (r : ℝ) (hr : 0 < r) : ∃ (p : KinProblem) (obs : List KinMeas) (res : KinResult), kinematic6 idKCeres p 1 obs = .ok res ∧
    p.cameraChain = wristChain ∧ p.targetChain = wristChain ∧ p.cameraStdev ≠ 0 ∧ p.targetStdev ≠ 0 ∧ jointsOf6 obs = wristJoints ∧
    (∀ m ∈ obs, RigidMotion m.cameraToTarget ∧ Spec.Close r m.cameraToTarget
      ((wristTruth 1).predicts wristChain wristChain m.cameraJoints m.targetJoints)) ∧
    (∀ j : Fin 3, (j.val : Int) ∈ p.masks 2 ∧ (j.val : Int) ∈ p.masks 3) ∧ KinRepresentable p.cmToC ∧
    Spec.Close r p.cmToC 1 ∧ p.cmToC ≠ 1 ∧ TargetTurns wristChain wristJoints ∧ res.finalCost = some 0 := by
  obtain ⟨obs, hobs⟩ : ∃ obs : List KinMeas, obs = wristJoints.map fun q =>
    ⟨(plainCalib wristChain wristChain (shiftBy r 0 0) 1 (shiftBy 10 (-10) 10)).predicts wristChain wristChain q.1 q.2, q.1, q.2⟩ :=
    ⟨_, rfl⟩
  have hj : jointsOf6 obs = wristJoints := by rw [hobs, jointsOf6, List.map_map]; exact List.map_id _
  have rs : (shiftBy r 0 0).IsRigid := (rigid_iff _).2 (shiftBy_rep _ _ _).1
  have hrig : (plainCalib wristChain wristChain (shiftBy r 0 0) 1 (shiftBy 10 (-10) 10)).Rigid :=
    ⟨(shiftBy_rep _ _ _).1, (rigid_iff _).1 Iso.IsRigid.one, (shiftBy_rep _ _ _).1⟩
  have hw := (rigid_iff _).1 wristChain_rigid
  have hm : ∀ m ∈ obs, RigidMotion m.cameraToTarget ∧ Spec.Close r m.cameraToTarget
      ((wristTruth 1).predicts wristChain wristChain m.cameraJoints m.targetJoints) := by
    intro m hm
    rw [hobs] at hm
    obtain ⟨q, -, rfl⟩ := List.mem_map.1 hm
    refine ⟨(rigid_iff _).1 (predicts_rigid hw hw
      (k := plainCalib wristChain wristChain (shiftBy r 0 0) 1 (shiftBy 10 (-10) 10)) hrig _ _), ?_⟩
    simp only
    rw [wristTruth, plain_predicts wristChain_rigid rs, plain_predicts wristChain_rigid Iso.IsRigid.one, Iso.inv_one, Iso.one_mul]
    have e : (shiftBy r 0 0).inv = shiftBy (-r) 0 0 := by ext <;> simp [shiftBy, Iso.inv, M3.tr, M3.mulVec]
    rw [e]
    exact (shift_close (-r) _).mono (by rw [abs_neg, abs_of_pos hr])
  obtain ⟨res, hres⟩ := wristMasked_returns r hj
  have hst : calibOf res = plainCalib wristChain wristChain (shiftBy r 0 0) 1 (shiftBy 10 (-10) 10) := by
    have h' := hres
    unfold kinematic6 at h'
    obtain ⟨R⟩ := kinOptimize_ok idKCeres_wf h'
    have hst : R.st = kinInit (wristMasked r) := R.st_eq
    rw [← R.calibAt, hst]
    exact calibAt_init (p := wristMasked r) (kinRepresentable_shift _ _ _) kinRepresentable_one (kinRepresentable_shift _ _ _)
  refine ⟨_, obs, res, hres, rfl, rfl, by norm_num [wristMasked, wristProblem], by norm_num [wristMasked, wristProblem], hj, hm,
    wristMasked_masks r, kinRepresentable_shift _ _ _, ?_, ?_, wrist_target, ?_⟩
  · have := shift_close r 1
    rw [Iso.mul_one, abs_of_pos hr] at this
    exact this
  · intro h
    have := congrArg (fun T : Iso => T.t.x) h
    exact hr.ne' this
  · rw [C175_zero idKCeres idKCeres_wf (wristMasked r) 1 obs res hw hw (fun m hmo => (hm m hmo).1) one_ne_zero
      (by norm_num [wristMasked, wristProblem]) (by norm_num [wristMasked, wristProblem]) hres, hst]
    refine ⟨fun m hmo => ?_, plainCalib_nominal _ _ _ _ _⟩
    rw [hobs] at hmo
    obtain ⟨q, -, rfl⟩ := List.mem_map.1 hmo
    rfl

/-- The images of the example, shifted by `t` pixels. -/
noncomputable def wristShifted (t : ℝ) : List KinObs :=
  wristImages.map fun o => ⟨o.correspondences.map fun c => ⟨⟨c.inImage.x + t, c.inImage.y⟩, c.inTarget⟩, o.cameraJoints, o.targetJoints⟩

/-- For every `r`, runs on images that are shifted by up to `r`, with a final cost of at most `r`, started at the truth. -/
example (r : ℝ) (hr : 0 < r) : ∃ (obs : List KinObs) (res : KinResult) (F : ℝ),
    kinematic2 idKCeres wristProblem ⟨1, 1, 0, 0⟩ obs = .ok res ∧
    (∀ o ∈ wristImages, ∀ c ∈ o.correspondences,
      (((wristTruth 1).predicts wristChain wristChain o.cameraJoints o.targetJoints).apply c.inTarget).z > 1 / 10 ^ 10) ∧
    (∀ o ∈ wristImages, SeesQuadrangle o.correspondences ∧
      ((wristTruth 1).predicts wristChain wristChain o.cameraJoints o.targetJoints).inv.t.z ≠ 0) ∧
    List.Forall₂ SameImage wristImages obs ∧
    (∀ o ∈ obs, PixelNoise r o.correspondences (fun c => c.inImage)
        fun c => pinhole ⟨1, 1, 0, 0⟩ (((wristTruth 1).predicts wristChain wristChain o.cameraJoints o.targetJoints).apply c.inTarget)) ∧
    (∀ o ∈ obs, ∀ c ∈ o.correspondences,
      (((calibOf res).predicts wristChain wristChain o.cameraJoints o.targetJoints).apply c.inTarget).z > 1 / 10 ^ 10) ∧
    NearlyEnough r wristChain wristChain (jointsOf2 wristImages) (wristTruth 1) (calibOf res) ∧ res.finalCost = some F ∧
    0 < F ∧ F ≤ r ∧
    misfit2 wristChain wristChain ⟨1, 1, 0, 0⟩ obs (calibOf res) +
      (calibOf res).offsetCosts wristProblem.cameraStdev wristProblem.targetStdev ≤
      misfit2 wristChain wristChain ⟨1, 1, 0, 0⟩ obs (wristTruth 1) := by
  obtain ⟨t, ht⟩ : ∃ t, t = min r 1 := ⟨_, rfl⟩
  have t0 : 0 < t := by rw [ht]; exact lt_min hr one_pos
  have t1 : t ≤ 1 := by rw [ht]; exact min_le_right _ _
  have tr : t ≤ r := by rw [ht]; exact min_le_left _ _
  obtain ⟨res, hres⟩ : ∃ res, kinematic2 idKCeres wristProblem ⟨1, 1, 0, 0⟩ (wristShifted t) = .ok res := by
    refine wrist_returns (by simp [kinCosts2, wristShifted, wristImages, wristJoints, squareImage, squarePoints]) fun f hf => ?_
    obtain ⟨o, ho, hf⟩ := List.mem_flatMap.1 hf
    obtain ⟨c, -, rfl⟩ := List.mem_map.1 hf
    unfold kinCost2
    rw [kinCameraToTarget_eq, if_pos, Res.ok_bind]
    · exact ⟨_, rfl⟩
    · obtain ⟨o₀, ho₀, rfl⟩ := List.mem_map.1 ho
      obtain ⟨q, hq, rfl⟩ := List.mem_map.1 ho₀
      simp only [wristJoints, List.mem_cons, List.not_mem_nil, or_false] at hq
      rcases hq with rfl | rfl | rfl | rfl | rfl <;> simp [wristProblem, wristChain, DHChain.dof]
  have hst := wrist_stays hres
  have hd : ∀ o ∈ wristImages, ∀ c ∈ o.correspondences, c.inImage = pinhole ⟨1, 1, 0, 0⟩
        (((wristTruth 1).predicts wristChain wristChain o.cameraJoints o.targetJoints).apply c.inTarget) ∧
      (((wristTruth 1).predicts wristChain wristChain o.cameraJoints o.targetJoints).apply c.inTarget).z > 1 / 10 ^ 10 := by
    intro o ho c hc
    obtain ⟨q, hq, rfl⟩ := List.mem_map.1 ho
    obtain ⟨x, hx, rfl⟩ := List.mem_map.1 hc
    exact ⟨rfl, lt_of_lt_of_le (by norm_num) ((wrist_depth hq).1 x hx)⟩
  have hfront : ∀ o ∈ wristShifted t, ∀ c ∈ o.correspondences,
      (((calibOf res).predicts wristChain wristChain o.cameraJoints o.targetJoints).apply c.inTarget).z > 1 / 10 ^ 10 := by
    rw [hst]
    intro o ho c hc
    obtain ⟨o₀, ho₀, rfl⟩ := List.mem_map.1 ho
    obtain ⟨c₀, hc₀, rfl⟩ := List.mem_map.1 hc
    exact (hd o₀ ho₀ c₀ hc₀).2
  have hmis : misfit2 wristChain wristChain ⟨1, 1, 0, 0⟩ (wristShifted t) (wristTruth 1) = 20 * t ^ 2 := by
    have hone : ∀ o ∈ wristImages, (o.correspondences.map fun c => pixelMisfit ⟨1, 1, 0, 0⟩
        ((wristTruth 1).predicts wristChain wristChain o.cameraJoints o.targetJoints)
        ⟨⟨c.inImage.x + t, c.inImage.y⟩, c.inTarget⟩).sum = 4 * t ^ 2 := by
      intro o ho
      have hall : ∀ x ∈ o.correspondences.map (fun c => pixelMisfit ⟨1, 1, 0, 0⟩
        ((wristTruth 1).predicts wristChain wristChain o.cameraJoints o.targetJoints)
        ⟨⟨c.inImage.x + t, c.inImage.y⟩, c.inTarget⟩), x = t ^ 2 := by
        intro x hx
        obtain ⟨c, hc, rfl⟩ := List.mem_map.1 hx
        unfold pixelMisfit
        simp only
        rw [(hd o ho c hc).1]
        ring
      have hl : o.correspondences.length = 4 := by
        obtain ⟨q, -, rfl⟩ := List.mem_map.1 ho
        rfl
      rw [List.eq_replicate_of_mem hall, List.sum_replicate, List.length_map, hl, nsmul_eq_mul]
      norm_num
    have hall : ∀ x ∈ (wristShifted t).map (fun o => (o.correspondences.map fun c =>
        pixelMisfit ⟨1, 1, 0, 0⟩ ((wristTruth 1).predicts wristChain wristChain o.cameraJoints o.targetJoints) c).sum), x = 4 * t ^ 2 := by
      intro x hx
      obtain ⟨o, ho, rfl⟩ := List.mem_map.1 hx
      obtain ⟨o₀, ho₀, rfl⟩ := List.mem_map.1 ho
      simp only [List.map_map]
      exact hone o₀ ho₀
    have hl : (wristShifted t).length = 5 := by rw [wristShifted, List.length_map, wristImages, List.length_map]; rfl
    unfold misfit2
    rw [List.eq_replicate_of_mem hall, List.sum_replicate, List.length_map, hl, nsmul_eq_mul]
    push_cast
    ring
  obtain ⟨n, hn, -, hc⟩ := C47_cost2 idKCeres idKCeres_wf wristProblem ⟨1, 1, 0, 0⟩ (wristShifted t) res hres hfront
  have hn' : (40 : ℝ) ≤ n := by
    have : ((wristShifted t).map fun o => o.correspondences.length).sum = 20 := by
      simp [wristShifted, wristImages, wristJoints, squareImage, squarePoints]
    rw [this] at hn
    exact_mod_cast hn
  have hF : res.finalCost = some (20 * t ^ 2 / 2 / n) := by
    rw [hc]
    refine congrArg some (congrArg (· / 2 / (n : ℝ)) ?_)
    have hsum : misfit2 wristChain wristChain ⟨1, 1, 0, 0⟩ (wristShifted t) (calibOf res) +
        offsetCost wristProblem.cameraStdev (calibOf res).offC + offsetCost wristProblem.targetStdev (calibOf res).offT = 20 * t ^ 2 := by
      have h0 := wrist_offsets
      unfold Calib.offsetCosts at h0
      rw [hst, hmis, add_assoc, h0, add_zero]
    exact hsum
  refine ⟨wristShifted t, res, _, hres, fun o ho c hc => (hd o ho c hc).2, ?_, ?_, ?_, hfront, ?_, hF, by positivity, ?_, ?_⟩
  · intro o ho
    obtain ⟨q, hq, rfl⟩ := List.mem_map.1 ho
    exact ⟨squareImage_sees _ _, (wrist_depth hq).2⟩
  · unfold wristShifted
    rw [List.forall₂_map_right_iff, List.forall₂_same]
    intro o _
    exact ⟨rfl, rfl, by simp [Function.comp_def]⟩
  · intro o ho c hc
    obtain ⟨o₀, ho₀, rfl⟩ := List.mem_map.1 ho
    obtain ⟨c₀, hc₀, rfl⟩ := List.mem_map.1 hc
    simp only
    rw [(hd o₀ ho₀ c₀ hc₀).1]
    refine ⟨?_, ?_⟩
    · simpa [abs_of_pos t0] using tr
    · simpa using hr.le
  · have e : jointsOf2 wristImages = wristJoints := by rw [jointsOf2, wristImages, List.map_map]; exact List.map_id _
    rw [e]
    exact .targetAlone wrist_target_alone wrist_camera
  · rw [div_le_iff₀ (by linarith)]
    nlinarith
  · rw [hst, wrist_offsets, add_zero]

end RCT
