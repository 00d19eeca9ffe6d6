import Verif.Model.Covariance
import Verif.Spec.Covariance
import Verif.Lemmas.Pose
import Mathlib.Algebra.Order.BigOperators.Group.Finset
import Mathlib.Algebra.BigOperators.Intervals
import Mathlib.Data.List.Range
import Mathlib.Tactic.Linarith
import Mathlib.Tactic.FieldSimp

/-!
# Lemmas about covariance analysis
-/

namespace RCT

/-- Replacement of a tiny standard deviation by one. -/
noncomputable def clampSigma (s : ℝ) : ℝ := if s < dblEps then 1 else s

theorem dblEps_le_one : dblEps ≤ 1 := by unfold dblEps; norm_num

theorem clampSigma_pos (s : ℝ) : 0 < clampSigma s := by
  unfold clampSigma; split
  · norm_num
  · rename_i h; exact lt_of_lt_of_le dblEps_pos (not_lt.1 h)

theorem clampSigma_idem (s : ℝ) : clampSigma (clampSigma s) = clampSigma s := by
  unfold clampSigma
  split
  · rw [if_neg (not_lt.2 dblEps_le_one)]
  · rfl

theorem clampSigma_of_ge {s : ℝ} (h : dblEps ≤ s) : clampSigma s = s := if_neg (not_lt.2 h)

theorem corrRow_offdiag (cov : MatD) (i : Nat) (js : List Nat) (s : ℝ) (k : Nat) (j : Nat) (hk : js[k]? = some j)
    (hij : i ≠ j) : (corrRow cov i js s)[k]? = some (cov.val i j / (clampSigma s * clampSigma (sigma cov j))) := by
  induction js generalizing s k with
  | nil => simp at hk
  | cons a js ih =>
    unfold corrRow
    by_cases ha : i = a
    · rw [if_pos ha]
      cases k with
      | zero => simp at hk; exact absurd (ha.trans hk) hij
      | succ k => simp at hk ⊢; exact ih s k hk
    · rw [if_neg ha]
      cases k with
      | zero => simp at hk; subst hk; simp [clampSigma]
      | succ k =>
        simp at hk ⊢
        have := ih (clampSigma s) k hk
        rwa [clampSigma_idem] at this

theorem corrRow_diag (cov : MatD) (i : Nat) (js : List Nat) (hn : js.Nodup) (s : ℝ) (k : Nat) (hk : js[k]? = some i) :
    (corrRow cov i js s)[k]? = some (if k = 0 then s else clampSigma s) := by
  induction js generalizing s k with
  | nil => simp at hk
  | cons a js ih =>
    rw [List.nodup_cons] at hn
    unfold corrRow
    by_cases ha : i = a
    · rw [if_pos ha]
      cases k with
      | zero => simp
      | succ k => simp at hk; exact absurd (ha ▸ List.mem_of_getElem? hk) hn.1
    · rw [if_neg ha]
      cases k with
      | zero => simp at hk; exact absurd hk.symm ha
      | succ k =>
        simp at hk ⊢
        have := ih hn.2 (clampSigma s) k hk
        rw [clampSigma_idem] at this
        simpa [clampSigma] using this

theorem computeCorrelations_eq (cov : MatD) (h : cov.rows = cov.cols) :
    ∃ corr, computeCorrelations cov = .ok corr ∧ corr.rows = cov.rows ∧ corr.cols = cov.rows ∧
      (∀ i < cov.rows, ∀ j < cov.rows, i ≠ j →
        corr.val i j = cov.val i j / (clampSigma (sigma cov i) * clampSigma (sigma cov j))) ∧
      (∀ i < cov.rows, corr.val i i = if i = 0 then sigma cov i else clampSigma (sigma cov i)) := by
  have e : computeCorrelations cov = .ok
      ⟨cov.rows, cov.rows, fun i j => (corrRow cov i (List.range cov.rows) (sigma cov i)).getD j 0⟩ :=
    if_neg (by simpa using h)
  refine ⟨_, e, rfl, rfl, ?_, ?_⟩
  · intro i hi j hj hij
    have := corrRow_offdiag cov i (List.range cov.rows) (sigma cov i) j j (by simp [List.getElem?_range hj]) hij
    simp [List.getD, this]
  · intro i hi
    have := corrRow_diag cov i (List.range cov.rows) List.nodup_range (sigma cov i) i (by simp [List.getElem?_range hi])
    simp [List.getD, this]

/-- The 2 × 2 minors of a positive semidefinite matrix. -/
theorem Spec.PosSemidefOn.minor {n : Nat} {a : Nat → Nat → ℝ} (h : Spec.PosSemidefOn n a) {i j : Nat} (hi : i < n)
    (hj : j < n) (hij : i ≠ j) : 0 ≤ a i i ∧ a i j ^ 2 ≤ a i i * a j j := by
  have quad : ∀ u v : ℝ, 0 ≤ u ^ 2 * a i i + 2 * (u * v) * a i j + v ^ 2 * a j j := by
    intro u v
    have := h.2 (fun k => if k = i then u else if k = j then v else 0)
    have hji : j ≠ i := hij.symm
    have inner : ∀ (y : ℝ) (k : Nat), ∑ l ∈ Finset.range n, y * a k l * (if l = i then u else if l = j then v else 0) =
        y * (a k i * u + a k j * v) := by
      intro y k
      have e : ∀ l, y * a k l * (if l = i then u else if l = j then v else 0)
          = (if l = i then y * (a k i * u) else 0) + (if l = j then y * (a k j * v) else 0) := by
        intro l
        by_cases h1 : l = i
        · subst h1; rw [if_pos rfl, if_pos rfl, if_neg hij]; ring
        · by_cases h2 : l = j
          · subst h2; rw [if_neg h1, if_pos rfl, if_neg h1, if_pos rfl]; ring
          · simp [h1, h2]
      simp only [e, Finset.sum_add_distrib, Finset.sum_ite_eq', Finset.mem_range, hi, hj, if_true]
      ring
    simp only [inner] at this
    have e2 : ∀ k, (if k = i then u else if k = j then v else 0) * (a k i * u + a k j * v) =
        (if k = i then u * (a i i * u + a i j * v) else 0) + (if k = j then v * (a j i * u + a j j * v) else 0) := by
      intro k
      by_cases h1 : k = i
      · subst h1; simp [hij]
      · by_cases h2 : k = j
        · subst h2; simp [hji]
        · simp [h1, h2]
    simp only [e2, Finset.sum_add_distrib, Finset.sum_ite_eq', Finset.mem_range, hi, hj, if_true] at this
    rw [h.1 j hj i hi] at this
    linarith
  have hii : 0 ≤ a i i := by have := quad 1 0; simpa using this
  refine ⟨hii, ?_⟩
  rcases hii.eq_or_lt with h0 | hpos
  · -- a i i = 0 forces a i j = 0
    have hz : a i j = 0 := by
      by_contra hne
      have := quad (-(a j j + 1) / (2 * a i j)) 1
      rw [← h0] at this
      have e : 2 * (-(a j j + 1) / (2 * a i j) * 1) * a i j = -(a j j + 1) := by field_simp
      rw [e] at this
      linarith
    rw [hz, ← h0]; norm_num
  · have := quad (a i j) (-(a i i))
    have e : a i j ^ 2 * a i i + 2 * (a i j * -a i i) * a i j + (-a i i) ^ 2 * a j j
        = a i i * (a i i * a j j - a i j ^ 2) := by ring
    rw [e] at this
    have := nonneg_of_mul_nonneg_right this hpos
    linarith

/-! ## The report -/

/-- What one row adds to the lists. -/
theorem covRow_cols (cov corr : MatD) (names : List String) (row : Nat) (cols : List Nat) (acc : CovResult)
    (hr : row < names.length) (hc : ∀ c ∈ cols, c < names.length ∧ row ≠ c) :
    Res.foldList (covCell cov corr names row) acc cols = .ok { acc with
      correlation_coeffs := acc.correlation_coeffs ++
        cols.map (fun c => ⟨names.getD row "", names.getD c "", corr.val row c⟩)
      covariances := acc.covariances ++
        cols.map (fun c => ⟨names.getD row "", names.getD c "", cov.val row c⟩) } := by
  induction cols generalizing acc with
  | nil => simp
  | cons c cols ih =>
    have h1 := hc c (by simp)
    have e1 : Res.idxList names row = .ok (names.getD row "") := by
      simp [Res.idxList, List.getElem?_eq_getElem hr, List.getD]
    have e2 : Res.idxList names c = .ok (names.getD c "") := by
      simp [Res.idxList, List.getElem?_eq_getElem h1.1, List.getD]
    rw [Res.foldList_cons, covCell, if_neg h1.2, e1, e2]
    simp only [Res.ok_bind]
    rw [ih _ (fun d hd => hc d (by simp [hd]))]
    simp

theorem covRow_eq (cov corr : MatD) (names : List String) (row : Nat) (acc : CovResult)
    (hl : names.length = corr.rows) (hr : row < corr.rows) :
    covRow cov corr names (row, acc) row = .ok (row + 1, { acc with
      standard_deviations := acc.standard_deviations ++ [⟨names.getD row "", "", corr.val row row⟩]
      correlation_coeffs := acc.correlation_coeffs ++
        (List.range' (row + 1) (corr.rows - (row + 1))).map (fun c => ⟨names.getD row "", names.getD c "", corr.val row c⟩)
      covariances := acc.covariances ++
        (List.range' (row + 1) (corr.rows - (row + 1))).map
          (fun c => ⟨names.getD row "", names.getD c "", cov.val row c⟩) }) := by
  have e : List.range' row (corr.rows - row) = row :: List.range' (row + 1) (corr.rows - (row + 1)) := by
    rw [show corr.rows - row = (corr.rows - (row + 1)) + 1 by omega, List.range'_succ]
  have e1 : Res.idxList names row = .ok (names.getD row "") := by
    simp [Res.idxList, List.getElem?_eq_getElem (hl ▸ hr : row < names.length), List.getD]
  unfold covRow
  simp only [e, Res.foldList_cons, covCell, if_true, e1, Res.ok_bind]
  rw [covRow_cols _ _ _ _ _ _ (by omega) (by
    intro c hc; rw [List.mem_range'] at hc; obtain ⟨i, hi, rfl⟩ := hc; omega)]
  simp

/-- The pairs `(row, col)`, `row < col < n`, in the order of the report, rows `k … k + m - 1`. -/
def upperPairs (n : Nat) (rows : List Nat) : List (Nat × Nat) :=
  rows.flatMap fun r => (List.range' (r + 1) (n - (r + 1))).map fun c => (r, c)

theorem covRows_eq (cov corr : MatD) (names : List String) (hl : names.length = corr.rows) (m k : Nat)
    (hk : k + m ≤ corr.rows) (acc : CovResult) :
    Res.foldList (covRow cov corr names) (k, acc) (List.range' k m) = .ok (k + m, { acc with
      standard_deviations := acc.standard_deviations ++
        (List.range' k m).map (fun r => ⟨names.getD r "", "", corr.val r r⟩)
      correlation_coeffs := acc.correlation_coeffs ++ (upperPairs corr.rows (List.range' k m)).map
        (fun p => ⟨names.getD p.1 "", names.getD p.2 "", corr.val p.1 p.2⟩)
      covariances := acc.covariances ++ (upperPairs corr.rows (List.range' k m)).map
        (fun p => ⟨names.getD p.1 "", names.getD p.2 "", cov.val p.1 p.2⟩) }) := by
  induction m generalizing k acc with
  | zero => simp [upperPairs]
  | succ m ih =>
    rw [List.range'_succ, Res.foldList_cons, covRow_eq _ _ _ _ _ hl (by omega), Res.ok_bind, ih (k + 1) (by omega)]
    simp [upperPairs, Function.comp_def, Nat.add_assoc, Nat.add_comm 1 m]

theorem computeCovarianceResults_eq (cov corr : MatD) (names : List String) (hl : names.length = cov.rows)
    (hc : computeCorrelations cov = .ok corr) :
    computeCovarianceResults cov names = .ok
      ⟨(List.range cov.rows).map (fun r => ⟨names.getD r "", "", corr.val r r⟩),
       (upperPairs cov.rows (List.range cov.rows)).map
        (fun p => ⟨names.getD p.1 "", names.getD p.2 "", corr.val p.1 p.2⟩),
       (upperPairs cov.rows (List.range cov.rows)).map
        (fun p => ⟨names.getD p.1 "", names.getD p.2 "", cov.val p.1 p.2⟩), cov, corr⟩ := by
  have hrows : corr.rows = cov.rows := by
    unfold computeCorrelations at hc
    split at hc
    · cases hc
    · cases hc; rfl
  unfold computeCovarianceResults
  rw [hc, Res.ok_bind, List.range_eq_range', covRows_eq cov corr names (by omega) corr.rows 0 (by omega)]
  simp [hrows, List.range_eq_range']

theorem upperPairs_mem (n : Nat) (rows : List Nat) (p : Nat × Nat) :
    p ∈ upperPairs n rows ↔ p.1 ∈ rows ∧ p.1 < p.2 ∧ p.2 < n := by
  unfold upperPairs
  simp only [List.mem_flatMap, List.mem_map, List.mem_range']
  constructor
  · rintro ⟨r, hr, c, ⟨i, hi, rfl⟩, rfl⟩; refine ⟨hr, ?_, ?_⟩ <;> simp <;> omega
  · rintro ⟨h1, h2, h3⟩
    exact ⟨p.1, h1, p.2, ⟨p.2 - (p.1 + 1), by omega, by omega⟩, rfl⟩

theorem upperPairs_nodup (n : Nat) (rows : List Nat) (h : rows.Nodup) : (upperPairs n rows).Nodup := by
  unfold upperPairs
  rw [List.nodup_flatMap]
  constructor
  · intro r _
    exact List.Nodup.map (fun a b hab => by simpa using hab) List.nodup_range'
  · refine List.Pairwise.imp_of_mem ?_ h
    intro a b _ _ hab x hx hy
    simp only [List.mem_map] at hx hy
    obtain ⟨_, _, rfl⟩ := hx
    obtain ⟨_, _, h2⟩ := hy
    simp at h2
    exact hab h2.1.symm

theorem upperPairs_length (n : Nat) : (upperPairs n (List.range n)).length = n * (n - 1) / 2 := by
  have key : ∀ m k, k + m = n → 2 * (upperPairs n (List.range' k m)).length = m * (m - 1) := by
    intro m
    induction m with
    | zero => intro k _; simp [upperPairs]
    | succ m ih =>
      intro k hk
      have := ih (k + 1) (by omega)
      rw [List.range'_succ]
      unfold upperPairs at this ⊢
      rw [List.flatMap_cons, List.length_append, Nat.mul_add, this]
      simp only [List.length_map, List.length_range']
      rw [show n - (k + 1) = m by omega]
      cases m with
      | zero => rfl
      | succ m => simp only [Nat.add_sub_cancel]; ring
  have := key n 0 (by omega)
  rw [← List.range_eq_range'] at this
  omega

end RCT

namespace RCT

/-! ## The selection of the free elements -/

/-- Invariant of the selection loop after the elements `E` were visited. -/
structure TInv (free : Nat → Nat → Prop) (names : SMap Nat (List String)) (E : List (Nat × Nat)) (idx : List Nat)
    (labels : List String) : Prop where
  len : labels.length = idx.length
  sorted : idx.Pairwise (· < ·)
  mem : ∀ k : Nat, k ∈ idx ↔ ∃ b i, E[k]? = some (b, i) ∧ free b i
  lab : ∀ r k : Nat, idx[r]? = some k → ∃ (b i : Nat) (l : List String) (s : String), E[k]? = some (b, i) ∧ names.find b = some l ∧ l[i]? = some s ∧
    labels[r]? = some s

theorem TInv.lt {free names E idx labels} (h : TInv free names E idx labels) {k : Nat} (hk : k ∈ idx) : k < E.length := by
  obtain ⟨b, i, he, -⟩ := (h.mem k).1 hk
  exact (List.getElem?_eq_some_iff.1 he).1

theorem TInv.nil (free names) : TInv free names [] [] [] := ⟨rfl, .nil, by simp, by simp⟩

theorem TInv.skip {free names E idx labels} (h : TInv free names E idx labels) (b i : Nat) (hf : ¬ free b i) :
    TInv free names (E ++ [(b, i)]) idx labels := by
  refine ⟨h.len, h.sorted, ?_, ?_⟩
  · intro k
    rw [h.mem]
    constructor
    · rintro ⟨b', i', he, hb⟩
      exact ⟨b', i', by rw [List.getElem?_append_left (List.getElem?_eq_some_iff.1 he).1]; exact he, hb⟩
    · rintro ⟨b', i', he, hb⟩
      by_cases hk : k < E.length
      · exact ⟨b', i', by rwa [List.getElem?_append_left hk] at he, hb⟩
      · exfalso
        rw [List.getElem?_append_right (by omega)] at he
        rcases hk' : k - E.length with _ | m
        · rw [hk'] at he; simp at he; obtain ⟨rfl, rfl⟩ := he; exact hf hb
        · rw [hk'] at he; simp at he
  · intro r k hr
    obtain ⟨b', i', l, s, he, h2⟩ := h.lab r k hr
    exact ⟨b', i', l, s, by rw [List.getElem?_append_left (List.getElem?_eq_some_iff.1 he).1]; exact he, h2⟩

theorem TInv.push {free names E idx labels} (h : TInv free names E idx labels) (b i : Nat) (hf : free b i)
    (l : List String) (s : String) (hl : names.find b = some l) (hs : l[i]? = some s) :
    TInv free names (E ++ [(b, i)]) (idx ++ [E.length]) (labels ++ [s]) := by
  refine ⟨by simp [h.len], ?_, ?_, ?_⟩
  · rw [List.pairwise_append]
    refine ⟨h.sorted, by simp, ?_⟩
    intro a ha c hc
    simp at hc; subst hc
    exact h.lt ha
  · intro k
    rw [List.mem_append, h.mem]
    constructor
    · rintro (⟨b', i', he, hb⟩ | hk)
      · exact ⟨b', i', by rw [List.getElem?_append_left (List.getElem?_eq_some_iff.1 he).1]; exact he, hb⟩
      · simp at hk; subst hk; exact ⟨b, i, by simp, hf⟩
    · rintro ⟨b', i', he, hb⟩
      by_cases hk : k < E.length
      · exact Or.inl ⟨b', i', by rwa [List.getElem?_append_left hk] at he, hb⟩
      · right
        rw [List.getElem?_append_right (by omega)] at he
        rcases hk' : k - E.length with _ | m
        · simp; omega
        · rw [hk'] at he; simp at he
  · intro r k hr
    by_cases hlt : r < idx.length
    · rw [List.getElem?_append_left hlt] at hr
      obtain ⟨b', i', l', s', he, h1, h2, h3⟩ := h.lab r k hr
      refine ⟨b', i', l', s', ?_, h1, h2, ?_⟩
      · rw [List.getElem?_append_left (List.getElem?_eq_some_iff.1 he).1]; exact he
      · rw [List.getElem?_append_left (by rw [h.len]; exact hlt)]; exact h3
    · rw [List.getElem?_append_right (by omega)] at hr
      rcases hr' : r - idx.length with _ | m
      · rw [hr'] at hr; simp at hr; subst hr
        have : r = labels.length := by rw [h.len]; omega
        subst this
        exact ⟨b, i, l, s, by simp, hl, hs, by simp⟩
      · rw [hr'] at hr; simp at hr

/-- Element `i` of block `b` is not masked. -/
def Free (masks : SMap Nat (List Int)) (b i : Nat) : Prop :=
  ((masks.find b).getD []).any (fun m => toSizeT m == i) = false

theorem tangentElems_inv {names : SMap Nat (List String)} {masks : SMap Nat (List Int)} {b : Nat} {l : List String}
    (hl : names.find b = some l) (m k : Nat) (E : List (Nat × Nat)) (s s' : Tangent)
    (hE : E.length = s.n + k) (h : TInv (Free masks) names E s.indices s.labels)
    (hs : Res.foldList (tangentElem l ((masks.find b).getD [])) s (List.range' k m) = .ok s') :
    s'.n = s.n ∧ TInv (Free masks) names (E ++ (List.range' k m).map fun i => (b, i)) s'.indices s'.labels := by
  induction m generalizing k E s with
  | zero => simp at hs; subst hs; simpa using h
  | succ m ih =>
    rw [List.range'_succ, Res.foldList_cons, Res.bind_ok_iff] at hs
    obtain ⟨s1, h1, h2⟩ := hs
    have step : s1.n = s.n ∧ TInv (Free masks) names (E ++ [(b, k)]) s1.indices s1.labels := by
      unfold tangentElem at h1
      by_cases hf : ((masks.find b).getD []).any (fun m => toSizeT m == k) = true
      · rw [if_pos hf] at h1
        cases h1
        exact ⟨rfl, h.skip b k (by unfold Free; rw [hf]; simp)⟩
      · rw [if_neg hf, Res.bind_ok_iff] at h1
        obtain ⟨a, ha, h1⟩ := h1
        cases h1
        refine ⟨rfl, ?_⟩
        rw [← hE]
        refine h.push b k (by unfold Free; simpa using hf) l a hl ?_
        unfold Res.atList at ha
        split at ha
        · rename_i x hx; cases ha; exact hx
        · cases ha
    have := ih (k + 1) (E ++ [(b, k)]) s1 (by simp [hE, step.1]; omega) step.2 h2
    refine ⟨this.1.trans step.1, ?_⟩
    have e : E ++ (List.range' k (m + 1)).map (fun i => (b, i)) =
        E ++ [(b, k)] ++ (List.range' (k + 1) m).map (fun i => (b, i)) := by
      rw [List.range'_succ, List.map_cons]; simp
    rw [e]; exact this.2

theorem tangentBlocks_inv {cs : CovSolver} {names : SMap Nat (List String)} {masks : SMap Nat (List Int)}
    (blocks : List Nat) (E : List (Nat × Nat)) (s s' : Tangent) (hE : E.length = s.n)
    (h : TInv (Free masks) names E s.indices s.labels)
    (hs : Res.foldList (tangentBlock cs names masks) s blocks = .ok s') :
    (∀ b ∈ blocks, ∃ size l, cs.blockSize b = some size ∧ names.find b = some l ∧ l.length = size) ∧
    TInv (Free masks) names (E ++ Spec.elements (fun b => (cs.blockSize b).getD 0) blocks) s'.indices s'.labels := by
  induction blocks generalizing E s with
  | nil => simp at hs; subst hs; simpa [Spec.elements] using h
  | cons b bs ih =>
    rw [Res.foldList_cons, Res.bind_ok_iff] at hs
    obtain ⟨s1, h1, h2⟩ := hs
    unfold tangentBlock at h1
    cases hb : cs.blockSize b with
    | none => rw [hb] at h1; simp at h1
    | some size =>
      rw [hb] at h1
      simp only [Res.bind_ok_iff] at h1
      obtain ⟨l, hl, h1⟩ := h1
      have hl' : names.find b = some l := by
        unfold SMap.at' at hl
        split at hl
        · rename_i x hx; cases hl; exact hx
        · cases hl
      split at h1
      · simp at h1
      · rename_i hlen
        rw [Res.bind_ok_iff] at h1
        obtain ⟨s2, h3, h1⟩ := h1
        cases h1
        rw [List.range_eq_range'] at h3
        have hinv := tangentElems_inv hl' size 0 E s s2 (by omega) h h3
        have := ih (E ++ (List.range' 0 size).map fun i => (b, i))
          ⟨s.n + size, s2.indices, s2.labels⟩ (by simp [hE]) hinv.2 h2
        refine ⟨?_, ?_⟩
        · intro c hc
          rcases List.mem_cons.1 hc with rfl | hc
          · exact ⟨size, l, hb, hl', by omega⟩
          · exact this.1 c hc
        · have e : Spec.elements (fun b => (cs.blockSize b).getD 0) (b :: bs) =
              (List.range' 0 size).map (fun i => (b, i)) ++ Spec.elements (fun b => (cs.blockSize b).getD 0) bs := by
            simp [Spec.elements, hb, List.range_eq_range']
          rw [e, ← List.append_assoc]; exact this.2

theorem free_iff {masks : SMap Nat (List Int)} {b i : Nat} (hi : i < 2 ^ 31)
    (hm : ∀ l, masks.find b = some l → ∀ m ∈ l, IsInt m) :
    Free masks b i ↔ (i : Int) ∉ (masks.find b).getD [] := by
  unfold Free
  cases hf : masks.find b with
  | none => simp
  | some l =>
    have hl := hm l hf
    simp only [Option.getD_some, List.any_eq_false, beq_iff_eq]
    constructor
    · intro h hin
      apply h _ hin
      rw [toSizeT_nonneg (hl _ hin) (by omega)]; omega
    · intro h m hm' he
      apply h
      rcases lt_or_ge m 0 with hneg | hpos
      · have := toSizeT_neg (hl m hm') hneg
        omega
      · rw [toSizeT_nonneg (hl m hm') hpos] at he
        have : m = (i : Int) := by omega
        rwa [← this]

end RCT
