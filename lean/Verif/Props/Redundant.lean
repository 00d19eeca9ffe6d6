import Verif.Props.Kinematic

/-!
# C155: Parameters of kinematic calibration that data cannot separate
-/

namespace RCT
open Spec

/-- The transform of a link of length `r` and twist `al` alone. -/
noncomputable def linkShift (r al : ℝ) : Iso := dhMatrix 0 0 r al

/-- The transform of a joint with offset `d` and angle `th` alone. -/
noncomputable def axisShift (d th : ℝ) : Iso := dhMatrix d th 0 0

theorem dhMatrix_link (d th r al r' al' : ℝ) : dhMatrix d th (r + r') (al + al') = dhMatrix d th r al * linkShift r' al' := by
  rw [linkShift, Iso.mul_def, M3.mul_def]
  ext <;> simp [dhMatrix, M3.mulVec, Real.cos_add, Real.sin_add] <;> ring

theorem dhMatrix_axis (d th r al d' th' : ℝ) : dhMatrix (d + d') (th + th') r al = axisShift d' th' * dhMatrix d th r al := by
  rw [axisShift, Iso.mul_def, M3.mul_def]
  ext <;> simp [dhMatrix, M3.mulVec, Real.cos_add, Real.sin_add] <;> ring

theorem jointPose_link (p : V4) (ty : JointType) (o : V4) (q r al : ℝ) :
    jointPose p ty (o + ⟨0, 0, r, al⟩) q = jointPose p ty o q * linkShift r al := by
  cases ty <;> simp only [jointPose, V4.add_def] <;> rw [← dhMatrix_link] <;> congr 1 <;> ring

theorem jointPose_axis (p : V4) (ty : JointType) (o : V4) (q d th : ℝ) :
    jointPose p ty (o + ⟨d, th, 0, 0⟩) q = axisShift d th * jointPose p ty o q := by
  cases ty <;> simp only [jointPose, V4.add_def] <;> rw [← dhMatrix_axis] <;> congr 1 <;> ring

theorem chainPose_last (B : Iso) (js : List (V4 × JointType)) (os : List V4) (o : V4) (q : List ℝ) (r al : ℝ)
    (h1 : js.length = os.length + 1) (h2 : q.length = os.length + 1) :
    chainPose B js (os ++ [o + ⟨0, 0, r, al⟩]) q = chainPose B js (os ++ [o]) q * linkShift r al := by
  induction os generalizing B js q with
  | nil =>
    obtain ⟨j, rfl⟩ := List.length_eq_one_iff.1 h1
    obtain ⟨x, rfl⟩ := List.length_eq_one_iff.1 h2
    simp only [List.nil_append, chainPose, jointPose_link, Iso.mul_assoc]
  | cons a os ih =>
    obtain ⟨j, js, rfl⟩ := List.exists_cons_of_length_eq_add_one h1
    obtain ⟨x, q, rfl⟩ := List.exists_cons_of_length_eq_add_one h2
    simp only [List.cons_append, chainPose]
    exact ih _ _ _ (by simpa using h1) (by simpa using h2)

/-- Link length and twist of the last joint act like a transform at the end of the chain. -/
theorem endPose_last (c : DHChain) (os : List V4) (o : V4) (q : List ℝ) (r al : ℝ) (h1 : c.transforms.length = os.length + 1)
    (h2 : q.length = os.length + 1) : endPose c (os ++ [o + ⟨0, 0, r, al⟩]) q = endPose c (os ++ [o]) q * linkShift r al :=
  chainPose_last _ _ _ _ _ _ _ (by simpa using h1) h2

/-- Offset and angle of the first joint act like a transform between the base of the chain and its first joint. -/
theorem endPose_first (c : DHChain) (hb : c.base.IsRigid) (os : List V4) (o : V4) (x : ℝ) (q : List ℝ) (d th : ℝ)
    (h1 : c.transforms ≠ []) :
    endPose c ((o + ⟨d, th, 0, 0⟩) :: os) (x :: q) = c.base * axisShift d th * c.base.inv * endPose c (o :: os) (x :: q) := by
  unfold endPose
  cases hc : c.transforms with
  | nil => exact absurd hc h1
  | cons t ts =>
    simp only [List.map_cons, chainPose, jointPose_axis]
    rw [← chainPose_base, Iso.mul_assoc (c.base * axisShift d th), Iso.inv_mul_cancel_left hb, Iso.mul_assoc]

/-- The two residual functions agree if the predicted poses do. -/
theorem kinCosts_congr {cc tc : DHChain} {p p' : Nat → Mem} {qc qt : List ℝ}
    (h : kinCameraToTarget cc tc qc qt p = kinCameraToTarget cc tc qc qt p') :
    (∀ w X, kinCost6 cc tc w ⟨X, qc, qt⟩ p = kinCost6 cc tc w ⟨X, qc, qt⟩ p') ∧
    ∀ intr cs k, kinCost2 cc tc intr ⟨cs, qc, qt⟩ k p = kinCost2 cc tc intr ⟨cs, qc, qt⟩ k p' := by
  constructor
  · intro w X; simp only [kinCost6, h]
  · intro intr cs k; simp only [kinCost2, h]

/-- Link length and twist of the last camera joint cannot be told from the transform between camera mount and camera: whatever
is added to them is undone by a change of that transform, in all residuals. -/
theorem C155_camera_mount (cc tc : DHChain) (os offT : List V4) (o : V4) (cm tm cb : Iso) (r al : ℝ) (p p' : Nat → Mem)
    (hp : ParamsAre p cc.transforms.length tc.transforms.length (os ++ [o]) offT cm tm cb)
    (hp' : ParamsAre p' cc.transforms.length tc.transforms.length (os ++ [o + ⟨0, 0, r, al⟩]) offT ((linkShift r al).inv * cm) tm cb)
    (qc qt : List ℝ) (h1 : qc.length = cc.transforms.length) (h2 : qt.length ≤ tc.transforms.length) :
    (∀ w X, kinCost6 cc tc w ⟨X, qc, qt⟩ p' = kinCost6 cc tc w ⟨X, qc, qt⟩ p) ∧
    ∀ intr cs k, kinCost2 cc tc intr ⟨cs, qc, qt⟩ k p' = kinCost2 cc tc intr ⟨cs, qc, qt⟩ k p := by
  have hl : cc.transforms.length = os.length + 1 := by have := hp.1.1; simp at this; omega
  apply kinCosts_congr
  rw [ParamsAre.pose hp (by omega) h2, ParamsAre.pose hp' (by omega) h2, endPose_last cc os o qc r al hl (by omega), Iso.mul_assoc,
    Iso.mul_inv_cancel_left (show (linkShift r al).IsRigid from dhMatrix_rigid _ _ _ _)]

/-- The same for the last joint of the target chain and the transform between target mount and target. -/
theorem C155_target_mount (cc tc : DHChain) (os offC : List V4) (o : V4) (cm tm cb : Iso) (r al : ℝ) (p p' : Nat → Mem)
    (hp : ParamsAre p cc.transforms.length tc.transforms.length offC (os ++ [o]) cm tm cb)
    (hp' : ParamsAre p' cc.transforms.length tc.transforms.length offC (os ++ [o + ⟨0, 0, r, al⟩]) cm ((linkShift r al).inv * tm) cb)
    (qc qt : List ℝ) (h1 : qc.length ≤ cc.transforms.length) (h2 : qt.length = tc.transforms.length) :
    (∀ w X, kinCost6 cc tc w ⟨X, qc, qt⟩ p' = kinCost6 cc tc w ⟨X, qc, qt⟩ p) ∧
    ∀ intr cs k, kinCost2 cc tc intr ⟨cs, qc, qt⟩ k p' = kinCost2 cc tc intr ⟨cs, qc, qt⟩ k p := by
  have hl : tc.transforms.length = os.length + 1 := by have := hp.2.1.1; simp at this; omega
  apply kinCosts_congr
  rw [ParamsAre.pose hp h1 (by omega), ParamsAre.pose hp' h1 (by omega), endPose_last tc os o qt r al hl (by omega)]
  simp only [Iso.mul_assoc]
  rw [Iso.mul_inv_cancel_left (show (linkShift r al).IsRigid from dhMatrix_rigid _ _ _ _)]

/-- Offset and angle of the first joint of the target chain cannot be told from the transform between the bases. -/
theorem C155_target_base (cc tc : DHChain) (htc : RigidMotion tc.base) (os offC : List V4) (o : V4) (cm tm cb : Iso) (d th : ℝ)
    (p p' : Nat → Mem) (hp : ParamsAre p cc.transforms.length tc.transforms.length offC (o :: os) cm tm cb)
    (hp' : ParamsAre p' cc.transforms.length tc.transforms.length offC ((o + ⟨d, th, 0, 0⟩) :: os) cm tm
      (cb * (tc.base * axisShift d th * tc.base.inv).inv))
    (qc qt : List ℝ) (h1 : qc.length ≤ cc.transforms.length) (h2 : qt.length = tc.transforms.length) :
    (∀ w X, kinCost6 cc tc w ⟨X, qc, qt⟩ p' = kinCost6 cc tc w ⟨X, qc, qt⟩ p) ∧
    ∀ intr cs k, kinCost2 cc tc intr ⟨cs, qc, qt⟩ k p' = kinCost2 cc tc intr ⟨cs, qc, qt⟩ k p := by
  have hb := (rigid_iff _).2 htc
  have hl : tc.transforms.length = os.length + 1 := by have := hp.2.1.1; simp at this; omega
  obtain ⟨x, q, rfl⟩ := List.exists_cons_of_length_eq_add_one (h2.trans hl)
  apply kinCosts_congr
  rw [ParamsAre.pose hp h1 (by omega), ParamsAre.pose hp' h1 (by omega),
    endPose_first tc hb os o x q d th (by rintro h0; rw [h0] at hl; simp at hl)]
  have hS : (tc.base * axisShift d th * tc.base.inv).IsRigid := (hb.mul (dhMatrix_rigid _ _ _ _)).mul hb.inv
  generalize tc.base * axisShift d th * tc.base.inv = S at hS
  simp only [Iso.mul_assoc]
  rw [Iso.inv_mul_cancel_left hS]

/-- Offset and angle of the first joint of the camera chain cannot be told from the transform between the bases. -/
theorem C155_camera_base (cc tc : DHChain) (hcc : RigidMotion cc.base) (os offT : List V4) (o : V4) (cm tm cb : Iso) (d th : ℝ)
    (p p' : Nat → Mem) (hp : ParamsAre p cc.transforms.length tc.transforms.length (o :: os) offT cm tm cb)
    (hp' : ParamsAre p' cc.transforms.length tc.transforms.length ((o + ⟨d, th, 0, 0⟩) :: os) offT cm tm
      (cc.base * axisShift d th * cc.base.inv * cb))
    (qc qt : List ℝ) (h1 : qc.length = cc.transforms.length) (h2 : qt.length ≤ tc.transforms.length) :
    (∀ w X, kinCost6 cc tc w ⟨X, qc, qt⟩ p' = kinCost6 cc tc w ⟨X, qc, qt⟩ p) ∧
    ∀ intr cs k, kinCost2 cc tc intr ⟨cs, qc, qt⟩ k p' = kinCost2 cc tc intr ⟨cs, qc, qt⟩ k p := by
  have hb := (rigid_iff _).2 hcc
  have hl : cc.transforms.length = os.length + 1 := by have := hp.1.1; simp at this; omega
  obtain ⟨x, q, rfl⟩ := List.exists_cons_of_length_eq_add_one (h1.trans hl)
  apply kinCosts_congr
  rw [ParamsAre.pose hp (by omega) h2, ParamsAre.pose hp' (by omega) h2,
    endPose_first cc hb os o x q d th (by rintro h0; rw [h0] at hl; simp at hl)]
  have hS : (cc.base * axisShift d th * cc.base.inv).IsRigid := (hb.mul (dhMatrix_rigid _ _ _ _)).mul hb.inv
  generalize cc.base * axisShift d th * cc.base.inv = S at hS
  rw [Iso.mul_assoc S, Iso.mul_inv_rev hS]
  simp only [Iso.mul_assoc]
  rw [Iso.inv_mul_cancel_left hS]

/-- Two parameter sets of a camera on one joint: no offsets, and a link that is longer by `r` with the camera moved back. -/
example (r : ℝ) : ∃ p p' : Nat → Mem,
    ParamsAre p kinExCamera.transforms.length kinExTarget.transforms.length ([] ++ [0]) [] 1 1 1 ∧
    ParamsAre p' kinExCamera.transforms.length kinExTarget.transforms.length ([] ++ [0 + ⟨0, 0, r, 0⟩]) []
      ((linkShift r 0).inv * 1) 1 1 := by
  have hz := paramsAre_zero 1 0
  obtain ⟨h0, h1, ⟨h2, a, h3, h4, h5⟩, h6, h7⟩ := hz
  refine ⟨fun _ _ => 0, fun b k => if b = 0 ∧ k = 2 then r else if b = 2 ∧ k = 0 then -r else 0, ⟨h0, h1, ⟨h2, a, h3, h4, h5⟩, h6, h7⟩,
    ⟨rfl, ?_⟩, ⟨rfl, by simp⟩, ⟨?_, a, ?_, ?_, h5⟩, ?_, ?_⟩
  · intro row v hv c
    have hr : row = 0 := by
      by_contra hne
      obtain ⟨m, rfl⟩ := Nat.exists_eq_succ_of_ne_zero hne
      simp at hv
    subst hr
    simp only [List.nil_append, List.getElem?_cons_zero, Option.some.injEq] at hv
    subst hv
    fin_cases c <;> simp [kinExCamera, entry]
  · simp [StoresVec, linkShift, dhMatrix, Iso.inv, M3.tr, M3.mulVec, Iso.mul_def, Iso.one_def]
  · simpa using h3
  · have : ((linkShift r 0).inv * 1).R = (1 : Iso).R := by
      rw [Iso.mul_one]; ext <;> simp [linkShift, dhMatrix, Iso.inv, M3.tr]
    rw [this]; exact h4
  · simpa using h6
  · simpa using h7

end RCT
