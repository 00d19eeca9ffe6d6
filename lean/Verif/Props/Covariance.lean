import Verif.Lemmas.Covariance

/-!
# C21 – C27: covariance reports
-/

namespace RCT

/-! ## C21 Correlation matrix is symmetric with standard deviations on the diagonal

Full statement: for every square covariance matrix that is symmetric, `computeCorrelations` returns a symmetric matrix
with diagonal entries `√|cov(i,i)|`. The diagonal part is false for (nearly) zero variances. -/

/-- A parameter with zero variance that is not the first one is reported with standard deviation 1. -/
theorem C21_negation : ∃ cov corr : MatD, cov.rows = 2 ∧ cov.cols = 2 ∧ Spec.PosSemidefOn 2 cov.val ∧
    computeCorrelations cov = .ok corr ∧ cov.val 1 1 = 0 ∧ corr.val 1 1 = 1 ∧ corr.val 1 1 ≠ Real.sqrt |cov.val 1 1| := by
  obtain ⟨corr, h1, -, -, -, h5⟩ := computeCorrelations_eq ⟨2, 2, fun i j => if i = 0 ∧ j = 0 then 1 else 0⟩ rfl
  have h11 := h5 1 (by decide)
  have hs : sigma ⟨2, 2, fun i j => if i = 0 ∧ j = 0 then 1 else 0⟩ 1 = 0 := by simp [sigma]
  rw [hs, clampSigma, if_pos dblEps_pos] at h11
  refine ⟨_, corr, rfl, rfl, ⟨?_, ?_⟩, h1, by simp, by simpa using h11, ?_⟩
  · intro i _ j _
    simp only
    by_cases hi : i = 0 <;> by_cases hj : j = 0 <;> simp [hi, hj]
  · intro x
    simp only [Finset.sum_range_succ, Finset.sum_range_zero]
    simp
    nlinarith [mul_self_nonneg (x 0)]
  · rw [h11]; simp

/-- What holds for every square matrix: the diagonal entry is the standard deviation for the first parameter and for
every parameter with standard deviation at least the double epsilon, and is 1 otherwise. -/
theorem C21_partial_diagonal (cov : MatD) (h : cov.rows = cov.cols) : ∃ corr, computeCorrelations cov = .ok corr ∧
    corr.rows = cov.rows ∧ corr.cols = cov.rows ∧ ∀ i < cov.rows,
      ((i = 0 ∨ dblEps ≤ Real.sqrt |cov.val i i|) → corr.val i i = Real.sqrt |cov.val i i|) ∧
      (i ≠ 0 → Real.sqrt |cov.val i i| < dblEps → corr.val i i = 1) := by
  obtain ⟨corr, h1, h2, h3, -, h5⟩ := computeCorrelations_eq cov h
  refine ⟨corr, h1, h2, h3, fun i hi => ⟨?_, ?_⟩⟩
  · rintro (rfl | hge)
    · rw [h5 0 hi, if_pos rfl]; rfl
    · rw [h5 i hi]; split
      · rfl
      · exact clampSigma_of_ge hge
  · intro h0 hlt
    rw [h5 i hi, if_neg h0]
    exact if_pos hlt

/-- Symmetry holds without exception. -/
theorem C21_symmetric (cov corr : MatD) (hs : Spec.SymmetricOn cov.rows cov.val)
    (h : computeCorrelations cov = .ok corr) : Spec.SymmetricOn cov.rows corr.val := by
  have hsq : cov.rows = cov.cols := by
    by_contra hne; rw [computeCorrelations, if_pos hne] at h; cases h
  obtain ⟨corr', h1, -, -, h4, h5⟩ := computeCorrelations_eq cov hsq
  rw [h] at h1; cases h1
  intro i hi j hj
  by_cases hij : i = j
  · rw [hij]
  · rw [h4 i hi j hj hij, h4 j hj i hi (Ne.symm hij), hs i hi j hj, mul_comm]

/-! ## C22 Correlation coefficients are bounded by one -/

theorem sigma_sq (cov : MatD) (i : Nat) (h : 0 ≤ cov.val i i) : sigma cov i * sigma cov i = cov.val i i := by
  unfold sigma; rw [abs_of_nonneg h, Real.mul_self_sqrt h]

/-- For every positive semidefinite matrix, also with tiny or zero variances. -/
theorem C22_bounded (cov corr : MatD) (hp : Spec.PosSemidefOn cov.rows cov.val) (h : computeCorrelations cov = .ok corr)
    (i j : Nat) (hi : i < cov.rows) (hj : j < cov.rows) (hij : i ≠ j) :
    -1 ≤ corr.val i j ∧ corr.val i j ≤ 1 := by
  have hsq : cov.rows = cov.cols := by
    by_contra hne; rw [computeCorrelations, if_pos hne] at h; cases h
  obtain ⟨corr', h1, -, -, h4, -⟩ := computeCorrelations_eq cov hsq
  rw [h] at h1; cases h1
  rw [h4 i hi j hj hij, ← abs_le, abs_div]
  have m1 := hp.minor hi hj hij
  have m2 := hp.minor hj hi (Ne.symm hij)
  have s1 := sigma_sq cov i m1.1
  have s2 := sigma_sq cov j m2.1
  have n1 : 0 ≤ sigma cov i := Real.sqrt_nonneg _
  have n2 : 0 ≤ sigma cov j := Real.sqrt_nonneg _
  have hle : ∀ s : ℝ, s ≤ clampSigma s := by
    intro s; unfold clampSigma; split
    · rename_i hlt; exact le_trans hlt.le dblEps_le_one
    · exact le_refl _
  have hpos : 0 < clampSigma (sigma cov i) * clampSigma (sigma cov j) := mul_pos (clampSigma_pos _) (clampSigma_pos _)
  rw [abs_of_pos hpos, div_le_one hpos]
  have hb : |cov.val i j| ≤ sigma cov i * sigma cov j := by
    apply abs_le_of_sq_le_sq _ (mul_nonneg n1 n2)
    calc cov.val i j ^ 2 ≤ cov.val i i * cov.val j j := m1.2
      _ = (sigma cov i * sigma cov j) ^ 2 := by rw [← s1, ← s2]; ring
  exact hb.trans (mul_le_mul (hle _) (hle _) n2 (clampSigma_pos _).le)

/-- A parameter without variance is uncorrelated with all others. -/
theorem C22_zero_variance (cov corr : MatD) (hp : Spec.PosSemidefOn cov.rows cov.val)
    (h : computeCorrelations cov = .ok corr) (i j : Nat) (hi : i < cov.rows) (hj : j < cov.rows) (hij : i ≠ j)
    (h0 : cov.val i i = 0) : corr.val i j = 0 ∧ corr.val j i = 0 := by
  have hsq : cov.rows = cov.cols := by
    by_contra hne; rw [computeCorrelations, if_pos hne] at h; cases h
  obtain ⟨corr', h1, -, -, h4, -⟩ := computeCorrelations_eq cov hsq
  rw [h] at h1; cases h1
  have m1 := (hp.minor hi hj hij).2
  rw [h0, zero_mul] at m1
  have hz : cov.val i j = 0 := by nlinarith
  rw [h4 i hi j hj hij, h4 j hj i hi (Ne.symm hij), ← hp.1 i hi j hj, hz]
  simp

/-- For standard deviations not below the epsilon the coefficient is the textbook one. -/
theorem C22_value (cov corr : MatD) (h : computeCorrelations cov = .ok corr) (i j : Nat) (hi : i < cov.rows)
    (hj : j < cov.rows) (hij : i ≠ j) (h1 : dblEps ≤ Real.sqrt |cov.val i i|) (h2 : dblEps ≤ Real.sqrt |cov.val j j|) :
    corr.val i j = cov.val i j / (Real.sqrt |cov.val i i| * Real.sqrt |cov.val j j|) := by
  have hsq : cov.rows = cov.cols := by
    by_contra hne; rw [computeCorrelations, if_pos hne] at h; cases h
  obtain ⟨corr', h1', -, -, h4, -⟩ := computeCorrelations_eq cov hsq
  rw [h] at h1'; cases h1'
  rw [h4 i hi j hj hij, clampSigma_of_ge (show dblEps ≤ sigma cov i from h1),
    clampSigma_of_ge (show dblEps ≤ sigma cov j from h2)]
  rfl

/-- Non-vacuity: a positive semidefinite matrix with a correlation. -/
example : Spec.PosSemidefOn 2 (fun i j => if i = j then 2 else 1) := by
  constructor
  · intro i _ j _; simp [eq_comm]
  · intro x
    simp only [Finset.sum_range_succ, Finset.sum_range_zero]
    simp
    nlinarith [mul_self_nonneg (x 0 + x 1), mul_self_nonneg (x 0), mul_self_nonneg (x 1)]

/-! ## C23 Non-square covariance input is rejected -/

theorem C23_square (cov : MatD) :
    ((computeCorrelations cov).Throws ↔ cov.rows ≠ cov.cols) ∧ ((computeCorrelations cov).Returns ↔ cov.rows = cov.cols) := by
  unfold computeCorrelations
  split
  · rename_i h; simp [h]
  · rename_i h; simp at h; simp [h]

/-! ## C24 Covariance report lists every parameter and pair once with the right names -/

/-- The report in terms of the names, the covariance matrix and the correlation matrix. -/
theorem C24_report (cov : MatD) (names : List String) (hl : names.length = cov.rows) (hsq : cov.rows = cov.cols) :
    ∃ res, computeCovarianceResults cov names = .ok res ∧
      res.covariance_matrix = cov ∧ computeCorrelations cov = .ok res.correlation_matrix ∧
      (res.standard_deviations.length = names.length ∧ ∀ (k : Nat) (n : String), names[k]? = some n →
        res.standard_deviations[k]? = some ⟨n, "", res.correlation_matrix.val k k⟩) ∧
      ∃ pairs : List (Nat × Nat), pairs.Nodup ∧ pairs.length = names.length * (names.length - 1) / 2 ∧
        (∀ p, p ∈ pairs ↔ p.1 < p.2 ∧ p.2 < names.length) ∧
        res.correlation_coeffs.length = pairs.length ∧ res.covariances.length = pairs.length ∧
        ∀ (k i j : Nat) (ni nj : String), pairs[k]? = some (i, j) → names[i]? = some ni → names[j]? = some nj →
          res.correlation_coeffs[k]? = some ⟨ni, nj, res.correlation_matrix.val i j⟩ ∧
          res.covariances[k]? = some ⟨ni, nj, cov.val i j⟩ := by
  obtain ⟨corr, hc, -⟩ := computeCorrelations_eq cov hsq
  refine ⟨_, computeCovarianceResults_eq cov corr names hl hc, rfl, hc, ⟨by simp [hl], ?_⟩, ?_⟩
  · intro k n hk
    have : k < cov.rows := by rw [← hl]; exact (List.getElem?_eq_some_iff.1 hk).1
    simp [List.getElem?_range this, List.getD, hk]
  · refine ⟨upperPairs cov.rows (List.range cov.rows), upperPairs_nodup _ _ List.nodup_range, ?_, ?_, by simp, by simp, ?_⟩
    · rw [upperPairs_length, hl]
    · intro p; rw [upperPairs_mem, hl, List.mem_range]; omega
    · intro k i j ni nj hk hi hj
      simp [hk, List.getD, hi, hj]

/-- Too few names are undefined behaviour (out-of-range `operator[]`) — callers must pass enough. -/
theorem C24_too_few_names (cov : MatD) (hsq : cov.rows = cov.cols) (h : 0 < cov.rows) :
    computeCovarianceResults cov [] = .ub := by
  obtain ⟨corr, hc, hr, -⟩ := computeCorrelations_eq cov hsq
  obtain ⟨n, hn⟩ : ∃ n, cov.rows = n + 1 := ⟨cov.rows - 1, by omega⟩
  unfold computeCovarianceResults
  rw [hc, Res.ok_bind, hr, hn, List.range_eq_range', List.range'_succ, Res.foldList_cons]
  have : covRow cov corr [] (0, ⟨[], [], [], cov, corr⟩) 0 = .ub := by
    unfold covRow
    simp only [hr, hn]
    rw [Nat.sub_zero, List.range'_succ, Res.foldList_cons]
    simp [covCell, Res.idxList]
  rw [this]; rfl

/-! ## C25 Covariance report covers exactly the free parameters -/

/-- The inputs are C++ `int`s. -/
def CovWF (cs : CovSolver) (masks : SMap Nat (List Int)) : Prop :=
  (∀ b n, cs.blockSize b = some n → n < 2 ^ 31) ∧ ∀ b l, masks.find b = some l → ∀ m ∈ l, IsInt m

theorem computeCovariance_ok {cs : CovSolver} {blocks : List Nat} {names : SMap Nat (List String)}
    {masks : SMap Nat (List Int)} {res : CovResult} (h : computeCovariance cs blocks names masks = .ok res) :
    blocks.length = names.size ∧ cs.compute blocks = .ok true ∧ ∃ s full, cs.matrix blocks = some full ∧
      Res.foldList (tangentBlock cs names masks) ⟨0, [], []⟩ blocks = .ok s ∧
      computeCovarianceResults
        ⟨s.labels.length, s.labels.length, fun r c => full (s.indices.getD r 0) (s.indices.getD c 0)⟩ s.labels = .ok res := by
  unfold computeCovariance at h
  split at h
  · cases h
  · rename_i hsz
    rw [Res.bind_ok_iff] at h
    obtain ⟨s, hs, h⟩ := h
    rw [Res.bind_ok_iff] at h
    obtain ⟨g, hg, h⟩ := h
    cases g with
    | false => simp at h
    | true =>
      simp only [Bool.true_eq_false, if_false] at h
      cases hm : cs.matrix blocks with
      | none => rw [hm] at h; simp at h
      | some full => rw [hm] at h; exact ⟨not_not.1 hsz, hg, s, full, rfl, hs, h⟩

/-- When the call returns there is an increasing list of positions, exactly the storage positions of the elements whose
index is not in the mask of their block, such that the reported covariance matrix is the sub-matrix of the full matrix at
these positions and the reported names are the labels of the elements stored there. -/
theorem C25_free_parameters (cs : CovSolver) (blocks : List Nat) (names : SMap Nat (List String))
    (masks : SMap Nat (List Int)) (res : CovResult) (hwf : CovWF cs masks)
    (h : computeCovariance cs blocks names masks = .ok res) :
    ∃ (full : Nat → Nat → ℝ) (idx : List Nat), cs.matrix blocks = some full ∧ idx.Pairwise (· < ·) ∧
      (∀ k : Nat, k ∈ idx ↔ ∃ b i, (Spec.elements (fun b => (cs.blockSize b).getD 0) blocks)[k]? = some (b, i) ∧
        (i : Int) ∉ (masks.find b).getD []) ∧
      res.covariance_matrix.rows = idx.length ∧ res.covariance_matrix.cols = idx.length ∧
      (∀ r c kr kc : Nat, idx[r]? = some kr → idx[c]? = some kc → res.covariance_matrix.val r c = full kr kc) ∧
      res.standard_deviations.length = idx.length ∧
      ∀ r k : Nat, idx[r]? = some k → ∃ (b i : Nat) (l : List String) (s : String),
        (Spec.elements (fun b => (cs.blockSize b).getD 0) blocks)[k]? = some (b, i) ∧ names.find b = some l ∧
        l[i]? = some s ∧ res.standard_deviations[r]? = some ⟨s, "", res.correlation_matrix.val r r⟩ := by
  obtain ⟨-, -, s, full, hm, hs, hr⟩ := computeCovariance_ok h
  have hinv := (tangentBlocks_inv blocks [] ⟨0, [], []⟩ s rfl (TInv.nil _ _) hs).2
  rw [List.nil_append] at hinv
  obtain ⟨res', e1, e2, -, ⟨e4, e5⟩, -⟩ := C24_report
    ⟨s.labels.length, s.labels.length, fun r c => full (s.indices.getD r 0) (s.indices.getD c 0)⟩ s.labels rfl rfl
  rw [hr] at e1; cases e1
  refine ⟨full, s.indices, hm, hinv.sorted, ?_, by rw [e2, ← hinv.len], by rw [e2, ← hinv.len], ?_, by rw [e4, hinv.len], ?_⟩
  · intro k
    rw [hinv.mem]
    constructor
    · rintro ⟨b, i, he, hf⟩
      refine ⟨b, i, he, (free_iff ?_ (fun l hl => hwf.2 b l hl)).1 hf⟩
      have := List.mem_of_getElem? he
      simp only [Spec.elements, List.mem_flatMap, List.mem_map, List.mem_range, Prod.mk.injEq] at this
      obtain ⟨b', hb', i', hi', rfl, rfl⟩ := this
      cases hsz : cs.blockSize b' with
      | none => rw [hsz] at hi'; simp at hi'
      | some n => rw [hsz] at hi'; exact lt_trans hi' (hwf.1 b' n hsz)
    · rintro ⟨b, i, he, hf⟩
      refine ⟨b, i, he, (free_iff ?_ (fun l hl => hwf.2 b l hl)).2 hf⟩
      have := List.mem_of_getElem? he
      simp only [Spec.elements, List.mem_flatMap, List.mem_map, List.mem_range, Prod.mk.injEq] at this
      obtain ⟨b', hb', i', hi', rfl, rfl⟩ := this
      cases hsz : cs.blockSize b' with
      | none => rw [hsz] at hi'; simp at hi'
      | some n => rw [hsz] at hi'; exact lt_trans hi' (hwf.1 b' n hsz)
  · intro r c kr kc hr hc
    rw [e2]; simp [List.getD, hr, hc]
  · intro r k hk
    obtain ⟨b, i, l, t, h1, h2, h3, h4⟩ := hinv.lab r k hk
    exact ⟨b, i, l, t, h1, h2, h3, e5 r t h4⟩

/-! ## C26 Covariance argument checks -/

/-- A normal return implies that all checks hold: as many label lists as blocks, one label per parameter, and the solver
reported success; the report then has one standard deviation per unmasked element. -/
theorem C26_returns (cs : CovSolver) (blocks : List Nat) (names : SMap Nat (List String)) (masks : SMap Nat (List Int))
    (res : CovResult) (h : computeCovariance cs blocks names masks = .ok res) :
    names.size = blocks.length ∧
    (∀ b ∈ blocks, ∃ size l, cs.blockSize b = some size ∧ names.find b = some l ∧ l.length = size) ∧
    cs.compute blocks = .ok true ∧ (cs.matrix blocks).isSome := by
  obtain ⟨h1, h2, s, full, hm, hs, hr⟩ := computeCovariance_ok h
  exact ⟨h1.symm, (tangentBlocks_inv blocks [] ⟨0, [], []⟩ s rfl (TInv.nil _ _) hs).1, h2, by simp [hm]⟩

theorem tangentElems_ok (l : List String) (masks : List Int) (m k : Nat) (s : Tangent) (h : k + m ≤ l.length) :
    ∃ s', Res.foldList (tangentElem l masks) s (List.range' k m) = .ok s' ∧
      s'.indices.length = s.indices.length + ((List.range' k m).filter
        (fun i => !(masks.any fun x => toSizeT x == i))).length := by
  induction m generalizing k s with
  | zero => exact ⟨s, rfl, rfl⟩
  | succ m ih =>
    rw [List.range'_succ, Res.foldList_cons]
    unfold tangentElem
    by_cases hm : (masks.any fun x => toSizeT x == k) = true
    · rw [if_pos hm, Res.ok_bind]
      obtain ⟨s', h1, h2⟩ := ih (k + 1) s (by omega)
      refine ⟨s', h1, ?_⟩
      rw [h2, List.filter_cons_of_neg (by simpa using hm)]
    · rw [if_neg hm]
      have : Res.atList l k = .ok (l[k]'(by omega)) := by
        simp [Res.atList, List.getElem?_eq_getElem (show k < l.length by omega)]
      rw [this, Res.ok_bind, Res.ok_bind]
      obtain ⟨s', h1, h2⟩ := ih (k + 1) _ (by omega)
      refine ⟨s', h1, ?_⟩
      rw [h2, List.filter_cons_of_pos (by simpa using hm)]
      simp; omega

theorem tangentBlocks_outcome (cs : CovSolver) (names : SMap Nat (List String)) (masks : SMap Nat (List Int))
    (blocks : List Nat) (s : Tangent) (hin : ∀ b ∈ blocks, (cs.blockSize b).isSome) :
    (∃ s', Res.foldList (tangentBlock cs names masks) s blocks = .ok s') ∨
    ((∃ b ∈ blocks, ∀ l, names.find b = some l → cs.blockSize b ≠ some l.length) ∧
      (Res.foldList (tangentBlock cs names masks) s blocks).Throws) := by
  induction blocks generalizing s with
  | nil => exact Or.inl ⟨s, rfl⟩
  | cons b bs ih =>
    rw [Res.foldList_cons]
    obtain ⟨size, hsz⟩ := Option.isSome_iff_exists.1 (hin b (by simp))
    have bad : (∀ l, names.find b = some l → cs.blockSize b ≠ some l.length) →
        (tangentBlock cs names masks s b).Throws := by
      intro hl
      unfold tangentBlock
      rw [hsz]
      simp only
      unfold SMap.at'
      cases hf : names.find b with
      | none => simp
      | some l =>
        have := hl l hf
        rw [hsz] at this
        simp only [Res.ok_bind]
        rw [if_pos (by simpa using this)]; simp
    by_cases hl : ∀ l, names.find b = some l → cs.blockSize b ≠ some l.length
    · right
      obtain ⟨e, he⟩ := bad hl
      refine ⟨⟨b, by simp, hl⟩, ?_⟩
      rw [he]; simp
    · push Not at hl
      obtain ⟨l, hf, hlen⟩ := hl
      rw [hsz] at hlen
      cases hlen
      have : ∃ s', tangentBlock cs names masks s b = .ok s' := by
        unfold tangentBlock
        rw [hsz]
        simp only [SMap.at', hf, Res.ok_bind, ne_eq, not_true_eq_false, if_false]
        obtain ⟨s', h1, -⟩ := tangentElems_ok l ((masks.find b).getD []) l.length 0 s (by omega)
        rw [List.range_eq_range', h1]
        exact ⟨_, rfl⟩
      obtain ⟨s', hs'⟩ := this
      rw [hs', Res.ok_bind]
      rcases ih s' (fun c hc => hin c (by simp [hc])) with h | ⟨⟨c, hc, h1⟩, h2⟩
      · exact Or.inl h
      · exact Or.inr ⟨⟨c, by simp [hc], h1⟩, h2⟩

/-- For blocks of the problem and a solver that does not abort, the call throws exactly when a check fails: wrong number
of label lists, a block without labels or with the wrong number of labels, or a failure reported by the solver. -/
theorem C26_throws_iff (cs : CovSolver) (blocks : List Nat) (names : SMap Nat (List String)) (masks : SMap Nat (List Int))
    (hin : ∀ b ∈ blocks, (cs.blockSize b).isSome) (good : Bool) (hc : cs.compute blocks = .ok good) :
    (computeCovariance cs blocks names masks).Throws ↔
      names.size ≠ blocks.length ∨
      (∃ b ∈ blocks, ∀ l, names.find b = some l → cs.blockSize b ≠ some l.length) ∨
      good = false ∨ cs.matrix blocks = none := by
  unfold computeCovariance
  by_cases hsz : blocks.length ≠ names.size
  · rw [if_pos hsz]; simp; left; omega
  · rw [if_neg hsz]
    have hsz' : names.size = blocks.length := (not_not.1 hsz).symm
    rcases tangentBlocks_outcome cs names masks blocks ⟨0, [], []⟩ hin with ⟨s, hs⟩ | ⟨hbad, e, he⟩
    · have hgood := (tangentBlocks_inv blocks [] ⟨0, [], []⟩ s rfl (TInv.nil _ _) hs).1
      have hno : ¬ ∃ b ∈ blocks, ∀ l, names.find b = some l → cs.blockSize b ≠ some l.length := by
        rintro ⟨b, hb, h⟩
        obtain ⟨size, l, h1, h2, h3⟩ := hgood b hb
        exact h l h2 (by rw [h1, h3])
      rw [hs, Res.ok_bind, hc, Res.ok_bind]
      cases good with
      | false => simp
      | true =>
        cases hm : cs.matrix blocks with
        | none => simp
        | some full =>
          obtain ⟨res, hres, -⟩ := C24_report
            ⟨s.labels.length, s.labels.length, fun r c => full (s.indices.getD r 0) (s.indices.getD c 0)⟩ s.labels rfl rfl
          simp only [Bool.true_eq_false, if_false, hres]
          simp [hsz', hno]
    · rw [he]
      simp [hbad]

/-- Non-vacuity: one block of two parameters, the second one masked. -/
example : ∃ res, computeCovariance ⟨fun b => if b = 7 then some 2 else none, fun _ => .ok true, fun _ => some fun i j => i + j⟩
    [7] [(7, ["a", "b"])] [(7, [1])] = .ok res ∧ res.standard_deviations.length = 1 := by
  refine ⟨_, rfl, rfl⟩

/-! ## C27 Threshold query on correlations is complete and ordered -/

theorem absGreater_swo : (∀ a, absGreater a a = false) ∧
    (∀ a b c, absGreater a b = true → absGreater b c = true → absGreater a c = true) ∧
    (∀ a b c, absGreater a b = false → absGreater b a = false → absGreater b c = false → absGreater c b = false →
      absGreater a c = false ∧ absGreater c a = false) := by
  unfold absGreater
  refine ⟨by simp, ?_, ?_⟩
  · simp only [decide_eq_true_eq]; intro a b c h1 h2; exact lt_trans h2 h1
  · simp only [decide_eq_false_iff_not, not_lt, gt_iff_lt]
    intro a b c h1 h2 h3 h4
    exact ⟨h1.trans h3, h4.trans h2⟩

theorem C27_complete (sort) (hsort : IsStdSort sort) (coeffs : List NamedParam) (t : ℝ) :
    (outsideThreshold sort coeffs t).Perm (coeffs.filter fun c => decide (t < |c.value|)) ∧
    (outsideThreshold sort coeffs t).Pairwise fun a b => |b.value| ≤ |a.value| := by
  obtain ⟨s1, s2, s3⟩ := absGreater_swo
  have := hsort absGreater s1 s2 s3 (coeffs.filter fun c => decide (|c.value| > t))
  refine ⟨this.1, this.2.imp ?_⟩
  intro a b hab
  simpa [absGreater] using hab

theorem C27_monotone (sort) (hsort : IsStdSort sort) (coeffs : List NamedParam) (t t' : ℝ) (h : t ≤ t') :
    (outsideThreshold sort coeffs t').Subperm (outsideThreshold sort coeffs t) := by
  have h1 := (C27_complete sort hsort coeffs t).1
  have h2 := (C27_complete sort hsort coeffs t').1
  refine (h2.subperm).trans (List.Subperm.trans (List.Sublist.subperm ?_) h1.symm.subperm)
  apply List.monotone_filter_right
  intro a ha
  simp only [decide_eq_true_eq] at ha ⊢
  exact lt_of_le_of_lt h ha

/-- Non-vacuity: insertion sort meets the contract of `std::sort`. -/
example : ∃ sort : (NamedParam → NamedParam → Bool) → List NamedParam → List NamedParam, IsStdSort sort := by
  refine ⟨fun comp l => l.mergeSort (fun a b => !comp b a), ?_⟩
  intro comp h1 h2 h3 l
  refine ⟨List.mergeSort_perm _ _, ?_⟩
  have := List.pairwise_mergeSort (le := fun a b => !comp b a) ?_ ?_ l
  · exact this.imp (by simp)
  · intro a b c hab hbc
    simp only [Bool.not_eq_true'] at hab hbc ⊢
    by_contra hca
    rw [Bool.not_eq_false] at hca
    cases hac : comp a b with
    | true =>
      have := h2 c a b hca hac; rw [hbc] at this; cases this
    | false =>
      cases hbc' : comp b c with
      | true => have := h2 b c a hbc' hca; rw [hab] at this; cases this
      | false =>
        have := (h3 a b c hac hab hbc' hbc).2
        rw [hca] at this; cases this
  · intro a b
    simp only [Bool.or_eq_true, Bool.not_eq_true']
    by_contra hcon
    push Not at hcon
    simp at hcon
    have := h2 _ _ _ hcon.1 hcon.2
    rw [h1] at this; cases this

end RCT
