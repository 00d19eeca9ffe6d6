import Verif.Lemmas.DH
import Verif.Props.PoseProjection

/-!
# C06 – C15: DH chains
-/

namespace RCT

/-! ## C06 A DH joint transform is the classical DH matrix -/

theorem C06_dh_matrix (t : DHTransform) (q : ℝ) (off : V4) :
    t.relative q off = Spec.jointPose t.params t.type off q := relative_eq t q off

theorem C06_rigid (t : DHTransform) (q : ℝ) (off : V4) : Spec.RigidMotion (t.relative q off) := by
  rw [relative_eq, ← rigid_iff]; exact jointPose_rigid _ _ _ _

/-! ## C07 Forward kinematics size guard -/

/-- Throws exactly when there are too many joint values for the joints or for the offset rows; returns otherwise. In
particular it never has undefined behaviour. -/
theorem C07_guard (c : DHChain) (q : List ℝ) (offs : List V4) :
    ((c.getFK q offs).Throws ↔ q.length > c.transforms.length ∨ q.length > offs.length) ∧
    ((c.getFK q offs).Returns ↔ q.length ≤ c.transforms.length ∧ q.length ≤ offs.length) := by
  rw [getFK_eq]
  split
  · rename_i h; simp; omega
  · rename_i h; simp; omega

/-- Without an offset table only the number of joints matters. -/
theorem C07_guard_no_offsets (c : DHChain) (q : List ℝ) :
    ((c.getFK0 q).Throws ↔ q.length > c.transforms.length) ∧ ((c.getFK0 q).Returns ↔ q.length ≤ c.transforms.length) := by
  have := C07_guard c q (List.replicate c.dof 0)
  simpa [DHChain.getFK0, DHChain.dof] using this

/-! ## C08 Forward kinematics composes along the chain -/

/-- The result is the base offset followed by the joint poses in order. -/
theorem C08_value (c : DHChain) (q : List ℝ) (offs : List V4) (h1 : q.length ≤ c.transforms.length)
    (h2 : q.length ≤ offs.length) :
    c.getFK q offs =
      .ok (Spec.chainPose c.base (c.transforms.map fun t => (t.params, t.type)) offs q) := by
  rw [getFK_eq, if_pos ⟨h1, h2⟩]; rfl

/-- No joint values: the base offset. -/
theorem C08_empty (c : DHChain) (offs : List V4) : c.getFK [] offs = .ok c.base := by
  rw [C08_value c [] offs (Nat.zero_le _) (Nat.zero_le _), chainPose_nil_q]

/-- The pose of a longer joint vector is the pose of the prefix followed by the poses of the remaining joints. -/
theorem C08_prefix (c : DHChain) (q1 q2 : List ℝ) (offs : List V4) (T : Iso)
    (h : c.getFK (q1 ++ q2) offs = .ok T) :
    ∃ P, c.getFK q1 offs = .ok P ∧
      T = P * Spec.chainPose 1 ((c.transforms.drop q1.length).map fun t => (t.params, t.type))
        (offs.drop q1.length) q2 := by
  rw [getFK_eq] at h
  split at h
  · rename_i hl
    simp only [List.length_append] at hl
    refine ⟨Spec.chainPose c.base c.joints offs q1, by rw [getFK_eq, if_pos (by omega)], ?_⟩
    cases h
    rw [chainPose_append _ _ _ _ _ (by simp [DHChain.joints]; omega) (by omega), ← chainPose_base, Iso.mul_one]
    simp [DHChain.joints, List.map_drop]
  · cases h

/-- One more joint: multiply by that joint's relative transform. -/
theorem C08_step (c : DHChain) (q : List ℝ) (v : ℝ) (offs : List V4) (T : Iso)
    (h : c.getFK (q ++ [v]) offs = .ok T) :
    ∃ P t o, c.getFK q offs = .ok P ∧ c.transforms[q.length]? = some t ∧ offs[q.length]? = some o ∧
      T = P * t.relative v o := by
  have hl : (q ++ [v]).length ≤ c.transforms.length ∧ (q ++ [v]).length ≤ offs.length :=
    ((C07_guard c _ offs).2).1 ⟨T, h⟩
  simp only [List.length_append, List.length_singleton] at hl
  have hi1 : q.length < c.transforms.length := by omega
  have hi2 : q.length < offs.length := by omega
  obtain ⟨P, hP, hT⟩ := C08_prefix c q [v] offs T h
  refine ⟨P, c.transforms[q.length], offs[q.length], hP, List.getElem?_eq_getElem hi1, List.getElem?_eq_getElem hi2, ?_⟩
  rw [hT, List.drop_eq_getElem_cons hi1, List.drop_eq_getElem_cons hi2, relative_eq]
  simp only [List.map_cons, Spec.chainPose]
  rw [Iso.one_mul, chainPose_nil_q]

/-! ## C09 Forward kinematics is a rigid transform -/

theorem C09_rigid (c : DHChain) (q : List ℝ) (offs : List V4) (T : Iso) (hb : Spec.RigidMotion c.base)
    (h : c.getFK q offs = .ok T) : Spec.RigidMotion T := by
  rw [getFK_eq] at h
  split at h
  · cases h
    rw [← rigid_iff] at *
    exact chainPose_rigid hb _ _ _
  · cases h

/-- A two joint example chain. -/
noncomputable def exChain : DHChain :=
  ⟨[⟨⟨1, 0, 2, 1⟩, .revolute, -1, 1, "a", 1⟩, ⟨⟨0, 1, 1, 0⟩, .linear, 0, 2, "b", 2⟩], exRotX 1⟩

example : Spec.RigidMotion exChain.base ∧ (exChain.getFK [1, 2] [0, ⟨1, 1, 1, 1⟩]).Returns :=
  ⟨exRotX_rigid 1, (C07_guard _ _ _).2.2 ⟨by simp [exChain], by simp⟩⟩

/-! ## C10 Revolute joints are periodic, linear joints translate -/

/-- Adding whole turns to a revolute joint changes nothing. -/
theorem C10_revolute (c : DHChain) (q1 q2 : List ℝ) (v : ℝ) (k : ℤ) (offs : List V4)
    (h : ∀ t, c.transforms[q1.length]? = some t → t.type = .revolute) :
    c.getFK (q1 ++ (v + k * (2 * Real.pi)) :: q2) offs = c.getFK (q1 ++ v :: q2) offs := by
  rw [getFK_eq, getFK_eq]
  simp only [List.length_append, List.length_cons]
  split
  · rename_i hl
    congr 1
    have hi1 : q1.length < c.transforms.length := by omega
    have hi2 : q1.length < offs.length := by omega
    have hj : q1.length ≤ c.joints.length := by simp [DHChain.joints]; omega
    rw [chainPose_append _ _ _ _ _ hj (by omega), chainPose_append _ _ _ _ _ hj (by omega)]
    have ht := h _ (List.getElem?_eq_getElem hi1)
    rw [DHChain.joints, ← List.map_drop, List.drop_eq_getElem_cons hi1, List.drop_eq_getElem_cons hi2]
    simp only [List.map_cons, Spec.chainPose]
    congr 2
    unfold Spec.jointPose
    rw [ht]
    simp only [Spec.dhMatrix]
    have e : ∀ a : ℝ, a + (v + k * (2 * Real.pi)) = (a + v) + k * (2 * Real.pi) := by intro a; ring
    rw [e, Real.cos_add_int_mul_two_pi, Real.sin_add_int_mul_two_pi]
  · rfl

/-- Moving a linear joint by `s` keeps the orientation of the end and shifts it by `s` along the z axis of the frame
the joint is attached to (third column of the rotation of the pose reached with the preceding joints). -/
theorem C10_linear (c : DHChain) (q1 q2 : List ℝ) (v s : ℝ) (offs : List V4) (T P : Iso)
    (h : ∀ t, c.transforms[q1.length]? = some t → t.type = .linear)
    (hT : c.getFK (q1 ++ v :: q2) offs = .ok T) (hP : c.getFK q1 offs = .ok P) :
    c.getFK (q1 ++ (v + s) :: q2) offs =
      .ok ⟨T.R, ⟨T.t.x + s * P.R.m02, T.t.y + s * P.R.m12, T.t.z + s * P.R.m22⟩⟩ := by
  rw [getFK_eq] at hT hP ⊢
  simp only [List.length_append, List.length_cons] at *
  split at hT
  · rename_i hl
    rw [if_pos (by omega)] at hP
    cases hP
    cases hT
    rw [if_pos hl]
    congr 1
    have hi1 : q1.length < c.transforms.length := by omega
    have hi2 : q1.length < offs.length := by omega
    have hj : q1.length ≤ c.joints.length := by simp [DHChain.joints]; omega
    rw [chainPose_append _ _ _ _ _ hj (by omega), chainPose_append _ _ _ _ _ hj (by omega)]
    have ht := h _ (List.getElem?_eq_getElem hi1)
    generalize Spec.chainPose c.base c.joints offs q1 = P
    rw [DHChain.joints, ← List.map_drop, List.drop_eq_getElem_cons hi1, List.drop_eq_getElem_cons hi2]
    simp only [List.map_cons, Spec.chainPose]
    rw [ht]
    have e : ∀ (p o : V4), Spec.jointPose p .linear o (v + s) = ⟨1, ⟨0, 0, s⟩⟩ * Spec.jointPose p .linear o v := by
      intro p o
      simp only [Spec.jointPose, Spec.dhMatrix, Iso.mul_def, M3.one_mul, M3.one_mulVec]
      ext <;> simp
      ring
    rw [e, ← Iso.mul_assoc]
    rw [← Iso.mul_one (P * (⟨1, ⟨0, 0, s⟩⟩ : Iso) * _), chainPose_base, ← Iso.mul_one (P * Spec.jointPose _ _ _ _), chainPose_base]
    generalize Spec.chainPose 1 _ _ _ = Q
    generalize Spec.jointPose _ _ _ _ = J
    simp only [Iso.mul_def, M3.mul_one]
    ext <;> simp [M3.mulVec, M3.mul_def] <;> ring
  · cases hT

example : (∀ t, exChain.transforms[([1] : List ℝ).length]? = some t → t.type = .linear) ∧
    (exChain.getFK ([1] ++ 2 :: []) [0, 0]).Returns ∧ (exChain.getFK [1] [0, 0]).Returns :=
  ⟨by simp [exChain], (C07_guard _ _ _).2.2 ⟨by simp [exChain], by simp⟩, (C07_guard _ _ _).2.2 ⟨by simp [exChain], by simp⟩⟩

example : ∀ t, exChain.transforms[([] : List ℝ).length]? = some t → t.type = .revolute := by simp [exChain]

/-! ## C11 Applying calibrated offsets to the chain matches forward kinematics with offsets -/

theorem C11_bake_offsets (c : DHChain) (offs : List V4) (rd : Nat → Nat) (h : c.transforms.length ≤ offs.length) :
    ∃ c', c.withOffsets offs rd = .ok c' ∧ ∀ q, c'.getFK0 q = c.getFK q offs := by
  obtain ⟨ts', h1, h2, h3, _⟩ := offsetLoop_ok offs rd 0 c.transforms (by omega)
  refine ⟨⟨ts', c.base⟩, by simp [DHChain.withOffsets, h1], ?_⟩
  intro q
  rw [DHChain.getFK0, getFK_eq, getFK_eq]
  simp only [List.length_replicate, DHChain.dof, h2, and_self]
  by_cases hq : q.length ≤ c.transforms.length
  · rw [if_pos hq, if_pos ⟨hq, by omega⟩]
    simp only [DHChain.joints, h3, List.drop_zero]
    rw [chainPose_zipWith _ _ _ _ _ hq]
  · rw [if_neg hq, if_neg (by omega)]

/-- The precondition is needed: with too few offset rows the constructor reads outside the table. -/
theorem C11_short_table_ub (c : DHChain) (offs : List V4) (rd : Nat → Nat) (h : offs.length < c.transforms.length) :
    c.withOffsets offs rd = .ub := by
  unfold DHChain.withOffsets; rw [offsetLoop_ub _ _ _ _ (by omega) (by omega)]; rfl

example : exChain.transforms.length ≤ ([⟨1, 2, 3, 4⟩, 0] : List V4).length := by simp [exChain]

/-! ## C12 Baking offsets into a chain keeps its identity

Full statement: `SameIdentity c c' offs` for the chain `c'` built from `c` and `offs`, where -/

/-- Same number of joints, types, base, names and limits; table = old table + offsets. -/
def SameIdentity (c c' : DHChain) (offs : List V4) : Prop :=
  c'.transforms.length = c.transforms.length ∧ c'.getJointTypes = c.getJointTypes ∧ c'.getBaseOffset = c.getBaseOffset ∧
  c'.getDHTable = List.zipWith (· + ·) c.getDHTable offs ∧
  c'.transforms.map (·.name) = c.transforms.map (·.name) ∧
  c'.transforms.map (fun t => (t.min, t.max)) = c.transforms.map (fun t => (t.min, t.max))

/-- The base offset is the pose of the chain without any joint. -/
theorem C12_partial_base (c : DHChain) (offs : List V4) : c.getFK [] offs = .ok c.getBaseOffset := by
  simp [DHChain.getFK, DHChain.fkLoop, DHChain.getBaseOffset]

/-- All but names and limits are kept; missing from the full claim: joint names (all become "joint") and limits (all
become ±π). -/
theorem C12_partial (c : DHChain) (offs : List V4) (rd : Nat → Nat) (h : c.transforms.length ≤ offs.length) :
    ∃ c', c.withOffsets offs rd = .ok c' ∧
      c'.transforms.length = c.transforms.length ∧ c'.getJointTypes = c.getJointTypes ∧
      c'.getBaseOffset = c.getBaseOffset ∧ c'.getDHTable = List.zipWith (· + ·) c.getDHTable offs ∧
      (∀ t ∈ c'.transforms, t.name = "joint" ∧ t.min = -Real.pi ∧ t.max = Real.pi) := by
  obtain ⟨ts', h1, h2, h3, h4⟩ := offsetLoop_ok offs rd 0 c.transforms (by omega)
  refine ⟨⟨ts', c.base⟩, by simp [DHChain.withOffsets, h1], h2, ?_, rfl, ?_, h4⟩
  · have := congrArg (List.map Prod.snd) h3
    simp only [List.map_map, List.drop_zero, List.map_zipWith] at this
    simp only [DHChain.getJointTypes]
    have e1 : (Prod.snd ∘ fun t : DHTransform => (t.params, t.type)) = (·.type) := rfl
    rw [e1] at this
    rw [this]
    apply List.ext_getElem
    · simp; omega
    · intro i h1 h2; simp
  · have := congrArg (List.map Prod.fst) h3
    simp only [List.map_map, List.drop_zero, List.map_zipWith] at this
    simp only [DHChain.getDHTable]
    have e1 : (Prod.fst ∘ fun t : DHTransform => (t.params, t.type)) = (·.params) := rfl
    rw [e1] at this
    rw [this, List.zipWith_map_left]

theorem offsetLoop_seeds (offs : List V4) (rd : Nat → Nat) : ∀ (ts ts' : List DHTransform) (i : Nat),
    DHChain.offsetLoop offs rd i ts = .ok ts' → ts'.map (·.seed) = (List.range ts.length).map fun j => rd (i + j)
  | [], ts', i, h => by cases h; rfl
  | t :: ts, ts', i, h => by
    rw [DHChain.offsetLoop, Res.bind_ok_iff] at h
    obtain ⟨o, -, h⟩ := h
    rw [Res.bind_ok_iff] at h
    obtain ⟨rest, hr, h⟩ := h
    cases h
    have := offsetLoop_seeds offs rd ts rest (i + 1) hr
    rw [List.map_cons, this, List.length_cons, List.range_succ_eq_map, List.map_cons, List.map_map]
    refine congrArg₂ _ rfl (List.map_congr_left fun j _ => ?_)
    show rd (i + 1 + j) = rd (i + (j + 1))
    congr 1; omega

/-- The joints of the new chain get fresh seeds of their own, one draw of the random device for each. -/
theorem C12_seeds_partial (c c' : DHChain) (offs : List V4) (rd : Nat → Nat) (h : c.withOffsets offs rd = .ok c') :
    c'.transforms.map (·.seed) = (List.range c.dof).map rd := by
  rw [DHChain.withOffsets, Res.bind_ok_iff] at h
  obtain ⟨ts, h1, h⟩ := h
  cases h
  simpa [DHChain.dof] using offsetLoop_seeds offs rd c.transforms ts 0 h1

/-- The full claim fails: names and limits are lost. -/
theorem C12_negation (rd : Nat → Nat) : ¬ ∀ (c : DHChain) (offs : List V4), c.transforms.length ≤ offs.length →
    ∃ c', c.withOffsets offs rd = .ok c' ∧ SameIdentity c c' offs := by
  intro h
  obtain ⟨c', h1, h2⟩ := h exChain [0, 0] (by simp [exChain])
  obtain ⟨c'', h3, _, _, _, _, h4⟩ := C12_partial exChain [0, 0] rd (by simp [exChain])
  rw [h1] at h3
  cases h3
  obtain ⟨_, _, _, _, hn, _⟩ := h2
  have hlen : c'.transforms.length = 2 := by
    have := congrArg List.length hn; simpa [exChain] using this
  have h0 : 0 < c'.transforms.length := by omega
  have := congrArg (·[0]?) hn
  simp [exChain, List.getElem?_eq_getElem h0] at this
  have h5 := (h4 _ (List.getElem_mem h0)).1
  rw [h5] at this
  simp at this

/-! ## C13 Relative transform index guard -/

theorem C13_guard (c : DHChain) (idx : ℤ) (v : ℝ) :
    ((c.getRelativeTransform idx v).Throws ↔ idx < 0 ∨ (c.transforms.length : ℤ) ≤ idx) ∧
    (∀ (i : Nat) (hi : i < c.transforms.length), idx = i →
      c.getRelativeTransform idx v =
        .ok (Spec.jointPose c.transforms[i].params c.transforms[i].type 0 v)) := by
  unfold DHChain.getRelativeTransform
  constructor
  · split
    · rename_i h; simp; omega
    · rename_i h
      have hi : idx.toNat < c.transforms.length := by omega
      simp [Res.idxList, List.getElem?_eq_getElem hi]; omega
  · rintro i hi rfl
    rw [if_neg (by omega)]
    simp [Res.idxList, List.getElem?_eq_getElem hi, DHTransform.relative0, relative_eq]

/-! ## C14 Random joint values come from the joint's own seed

Full statement: for every history of earlier sampling calls, the next value of a joint depends on the joint only
(`OwnSeed`). -/

/-- State of the process after sampling the joints of `hist` in order, starting from a fresh process. -/
def stateAfter (E : Engine) (hist : List DHTransform) : Option E.St := (sampleAll E hist none).2

/-- The first value a joint produces does not depend on what other joints were sampled before. -/
def OwnSeed (E : Engine) : Prop :=
  ∀ (t : DHTransform) (hist : List DHTransform), (∀ t' ∈ hist, t'.seed ≠ t.seed) →
    (t.createRandomJointValue E (stateAfter E hist)).1 = (t.createRandomJointValue E none).1

/-- The claim fails for every engine whose second draw after some seed differs from the first draw after another seed. -/
theorem C14_negation (E : Engine) (s1 s2 : Nat) (hs : s1 ≠ s2) (lo hi : ℝ)
    (hd : (E.draw (E.draw (E.seed s2) lo hi).2 lo hi).1 ≠ (E.draw (E.seed s1) lo hi).1) : ¬ OwnSeed E := by
  intro h
  have := h ⟨0, .revolute, lo, hi, "a", s1⟩ [⟨0, .revolute, lo, hi, "b", s2⟩] (by simp [hs.symm])
  exact hd this

/-- A (non-random) engine that meets the hypothesis. -/
def exEngine : Engine := ⟨Nat, id, fun s lo hi => (if s = 0 then lo else hi, s + 1)⟩

example : (exEngine.draw (exEngine.draw (exEngine.seed 1) 0 1).2 0 1).1 ≠ (exEngine.draw (exEngine.seed 0) 0 1).1 := by
  simp [exEngine]

/-- The values of consecutive draws from one engine state. -/
def drawAll (E : Engine) : List DHTransform → E.St → List ℝ
  | [], _ => []
  | t :: ts, s => (E.draw s t.min t.max).1 :: drawAll E ts (E.draw s t.min t.max).2

/-- What does hold: in a fresh process all values, of all joints, are the consecutive draws of a single stream seeded by the
joint that was sampled first. Missing from the full claim: the seeds of all other joints are ignored. -/
theorem C14_partial (E : Engine) (t : DHTransform) (ts : List DHTransform) :
    (sampleAll E (t :: ts) none).1 = drawAll E (t :: ts) (E.seed t.seed) := by
  have h : ∀ (ts : List DHTransform) (s : E.St), (sampleAll E ts (some s)).1 = drawAll E ts s := by
    intro ts
    induction ts with
    | nil => intro s; rfl
    | cons t ts ih => intro s; simp only [sampleAll, DHTransform.createRandomJointValue, drawAll]; rw [ih]
  simp only [sampleAll, DHTransform.createRandomJointValue, drawAll]; rw [h]

/-! ## C15 Random poses respect joint limits -/

theorem C15_limits (E : Engine) (hE : E.InRange) (c : DHChain) (s : Option E.St)
    (hl : ∀ t ∈ c.transforms, t.min ≤ t.max) :
    List.Forall₂ (fun t v => t.min ≤ v ∧ v ≤ t.max) c.transforms (c.createUniformlyRandomPose E s).1 := by
  unfold DHChain.createUniformlyRandomPose
  generalize c.transforms = ts at *
  induction ts generalizing s with
  | nil => exact .nil
  | cons t ts ih =>
    refine .cons ?_ (ih _ (fun t ht => hl t (List.mem_cons_of_mem _ ht)))
    exact hE _ _ _ (hl t (List.mem_cons_self ..))

example : exEngine.InRange ∧ ∀ t ∈ exChain.transforms, t.min ≤ t.max := by
  constructor
  · intro s lo hi h; simp only [exEngine]; split <;> simp [h]
  · simp [exChain]

end RCT
