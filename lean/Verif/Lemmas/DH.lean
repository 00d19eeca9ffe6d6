import Verif.Lemmas.Pose
import Verif.Spec.DH

namespace RCT

theorem relative_eq (t : DHTransform) (q : ℝ) (off : V4) :
    t.relative q off = Spec.jointPose t.params t.type off q := by
  unfold DHTransform.relative Spec.jointPose
  cases t.type <;>
  · simp only [Iso.translateBy, Iso.rotateBy, Iso.mul_def, AngleAxis.toMat, Spec.dhMatrix, V4.add_def,
      M3.one_def, M3.mul_def, M3.mulVec]
    ext <;> simp [mul_comm]

theorem dhMatrix_rigid (d th r al : ℝ) : (Spec.dhMatrix d th r al).IsRigid := by
  have h1 := Real.sin_sq_add_cos_sq th
  have h2 := Real.sin_sq_add_cos_sq al
  apply M3.IsRot.of_cols <;> simp only [Spec.dhMatrix, M3.det]
  all_goals generalize Real.cos th = c at *
  all_goals generalize Real.sin th = s at *
  all_goals generalize Real.cos al = ca at *
  all_goals generalize Real.sin al = sa at *
  all_goals grind

theorem jointPose_rigid (p : V4) (ty : JointType) (o : V4) (q : ℝ) : (Spec.jointPose p ty o q).IsRigid := by
  unfold Spec.jointPose; cases ty <;> exact dhMatrix_rigid _ _ _ _

/-- Joint data of a chain. -/
def DHChain.joints (c : DHChain) : List (V4 × JointType) := c.transforms.map fun t => (t.params, t.type)

theorem fkLoop_eq (ts : List DHTransform) (offs : List V4) (i : Nat) (q : List ℝ) (T : Iso)
    (h1 : i + q.length ≤ ts.length) (h2 : i + q.length ≤ offs.length) :
    DHChain.fkLoop ts offs i q T =
      .ok (Spec.chainPose T ((ts.drop i).map fun t => (t.params, t.type)) (offs.drop i) q) := by
  induction q generalizing i T with
  | nil =>
    simp only [DHChain.fkLoop]
    cases (ts.drop i) <;> cases (offs.drop i) <;> rfl
  | cons a q ih =>
    simp only [List.length_cons] at h1 h2
    have hi1 : i < ts.length := by omega
    have hi2 : i < offs.length := by omega
    rw [List.drop_eq_getElem_cons hi1, List.drop_eq_getElem_cons hi2]
    simp only [DHChain.fkLoop, Res.idxList, Res.atList, List.getElem?_eq_getElem hi1, List.getElem?_eq_getElem hi2,
      Res.bind, List.map_cons, Spec.chainPose]
    rw [ih (i + 1) _ (by omega) (by omega), relative_eq]

/-- Forward kinematics in one line. -/
theorem getFK_eq (c : DHChain) (q : List ℝ) (offs : List V4) :
    c.getFK q offs =
      if q.length ≤ c.transforms.length ∧ q.length ≤ offs.length then .ok (Spec.chainPose c.base c.joints offs q)
      else .throw .runtimeError := by
  unfold DHChain.getFK DHChain.dof
  by_cases h1 : q.length > c.transforms.length
  · rw [if_pos h1, if_neg (by omega)]
  · rw [if_neg h1]
    by_cases h2 : q.length > offs.length
    · rw [if_pos h2, if_neg (by omega)]
    · rw [if_neg h2, if_pos (by omega), fkLoop_eq _ _ _ _ _ (by omega) (by omega)]
      simp [DHChain.joints]

theorem chainPose_append (B : Iso) (js : List (V4 × JointType)) (os : List V4) (q1 q2 : List ℝ)
    (h1 : q1.length ≤ js.length) (h2 : q1.length ≤ os.length) :
    Spec.chainPose B js os (q1 ++ q2) =
      Spec.chainPose (Spec.chainPose B js os q1) (js.drop q1.length) (os.drop q1.length) q2 := by
  induction q1 generalizing B js os with
  | nil =>
    simp only [List.nil_append, List.length_nil, List.drop_zero]
    cases js <;> cases os <;> rfl
  | cons a q1 ih =>
    cases js with
    | nil => simp at h1
    | cons j js =>
      cases os with
      | nil => simp at h2
      | cons o os =>
        simp only [List.length_cons, Nat.add_le_add_iff_right] at h1 h2
        simp only [List.cons_append, Spec.chainPose, List.length_cons, List.drop_succ_cons]
        exact ih _ _ _ h1 h2

theorem chainPose_nil_q (B : Iso) (js : List (V4 × JointType)) (os : List V4) : Spec.chainPose B js os [] = B := by
  cases js <;> cases os <;> rfl

/-- The base factors out. -/
theorem chainPose_base (B C : Iso) (js : List (V4 × JointType)) (os : List V4) (q : List ℝ) :
    Spec.chainPose (B * C) js os q = B * Spec.chainPose C js os q := by
  induction q generalizing C js os with
  | nil => simp [chainPose_nil_q]
  | cons a q ih =>
    cases js with
    | nil => rfl
    | cons j js =>
      cases os with
      | nil => rfl
      | cons o os =>
        simp only [Spec.chainPose]
        rw [← ih, Iso.mul_assoc]

theorem chainPose_rigid {B : Iso} (h : B.IsRigid) (js : List (V4 × JointType)) (os : List V4) (q : List ℝ) :
    (Spec.chainPose B js os q).IsRigid := by
  induction q generalizing B js os with
  | nil => rwa [chainPose_nil_q]
  | cons a q ih =>
    cases js with
    | nil => exact h
    | cons j js =>
      cases os with
      | nil => exact h
      | cons o os => exact ih (h.mul (jointPose_rigid _ _ _ _)) _ _

theorem offsetLoop_ok (offs : List V4) (rd : Nat → Nat) (i : Nat) (ts : List DHTransform)
    (h : i + ts.length ≤ offs.length) :
    ∃ ts', DHChain.offsetLoop offs rd i ts = .ok ts' ∧ ts'.length = ts.length ∧
      ts'.map (fun t => (t.params, t.type)) =
        List.zipWith (fun t o => (t.params + o, t.type)) ts (offs.drop i) ∧
      (∀ t ∈ ts', t.name = "joint" ∧ t.min = -Real.pi ∧ t.max = Real.pi) := by
  induction ts generalizing i with
  | nil => exact ⟨[], rfl, rfl, by simp, by simp⟩
  | cons t ts ih =>
    simp only [List.length_cons] at h
    obtain ⟨ts', h1, h2, h3, h4⟩ := ih (i + 1) (by omega)
    have hi : i < offs.length := by omega
    refine ⟨DHTransform.mk2 (t.params + offs[i]) t.type (rd i) :: ts', ?_, by simp [h2], ?_, ?_⟩
    · simp [DHChain.offsetLoop, Res.idxList, List.getElem?_eq_getElem hi, h1]
    · rw [List.drop_eq_getElem_cons hi]
      simp only [List.map_cons, List.zipWith_cons_cons, h3]
      rfl
    · intro t' ht'
      rcases List.mem_cons.1 ht' with rfl | ht'
      · exact ⟨rfl, rfl, rfl⟩
      · exact h4 t' ht'

theorem offsetLoop_ub (offs : List V4) (rd : Nat → Nat) (i : Nat) (ts : List DHTransform)
    (h : i ≤ offs.length) (h' : offs.length < i + ts.length) :
    DHChain.offsetLoop offs rd i ts = .ub := by
  induction ts generalizing i with
  | nil => simp at h'; omega
  | cons t ts ih =>
    simp only [List.length_cons] at h'
    by_cases hi : i < offs.length
    · simp [DHChain.offsetLoop, Res.idxList, List.getElem?_eq_getElem hi, ih (i + 1) (by omega) (by omega)]
    · have : offs[i]? = none := List.getElem?_eq_none (by omega)
      simp [DHChain.offsetLoop, Res.idxList, this]

theorem chainPose_zipWith (B : Iso) (ts : List DHTransform) (offs : List V4) (q : List ℝ) (n : Nat)
    (hn : q.length ≤ n) :
    Spec.chainPose B (List.zipWith (fun t o => (t.params + o, t.type)) ts offs) (List.replicate n 0) q =
      Spec.chainPose B (ts.map fun t => (t.params, t.type)) offs q := by
  induction q generalizing B ts offs n with
  | nil => simp [chainPose_nil_q]
  | cons a q ih =>
    cases ts with
    | nil => simp [Spec.chainPose]
    | cons t ts =>
      cases offs with
      | nil => simp [Spec.chainPose]
      | cons o offs =>
        cases n with
        | zero => simp at hn
        | succ n =>
          simp only [List.zipWith_cons_cons, List.replicate_succ, List.map_cons, Spec.chainPose]
          rw [ih _ _ _ _ (by simpa using hn)]
          congr 2
          unfold Spec.jointPose
          cases t.type <;> simp

end RCT
