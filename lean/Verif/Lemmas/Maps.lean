import Verif.Lemmas.Solver

/-! # Maps filled in a loop, and covariance requests for unknown blocks -/

namespace RCT

theorem SMap.find_none_iff {K V : Type} [DecidableEq K] (m : SMap K V) (k : K) :
    m.find k = none ↔ k ∉ m.map Prod.fst := by
  unfold SMap.find
  induction m with
  | nil => simp
  | cons e m ih =>
    rw [List.lookup_cons]
    by_cases h : k = e.1
    · simp [h]
    · have : (k == e.1) = false := by simpa using h
      rw [this]; simp [ih, h]

theorem SMap.size_insert_new {K V : Type} [DecidableEq K] (m : SMap K V) (k : K) (v : V) (h : m.find k = none) :
    (m.insert k v).size = m.size + 1 := by
  rw [SMap.find_none_iff] at h
  unfold SMap.insert SMap.size
  rw [if_neg (by simpa using h)]
  simp

theorem find_foldl_insert {V : Type} (f : Nat → V) (g : Nat → Nat) (hg : ∀ a b, g a = g b → a = b) (n : Nat)
    (m : SMap Nat V) (c : Nat) (hc : c < n) :
    ((List.range n).foldl (fun m c => SMap.insert m (g c) (f c)) m).find (g c) = some (f c) := by
  induction n with
  | zero => omega
  | succ n ih =>
    rw [List.range_succ, List.foldl_append, List.foldl_cons, List.foldl_nil, SMap.find_insert]
    by_cases h : c = n
    · subst h; rw [if_pos rfl]
    · rw [if_neg (fun he => h (hg _ _ he)), ih (by omega)]

theorem find_foldl_insert_ne {V : Type} (f : Nat → V) (g : Nat → Nat) (n : Nat) (m : SMap Nat V) (k : Nat)
    (hk : ∀ c < n, k ≠ g c) :
    ((List.range n).foldl (fun m c => SMap.insert m (g c) (f c)) m).find k = m.find k := by
  induction n with
  | zero => rfl
  | succ n ih =>
    rw [List.range_succ, List.foldl_append, List.foldl_cons, List.foldl_nil, SMap.find_insert,
      if_neg (hk n (by omega)), ih (fun c hc => hk c (by omega))]

theorem size_foldl_insert {V : Type} (f : Nat → V) (g : Nat → Nat) (hg : ∀ a b, g a = g b → a = b) (n : Nat)
    (m : SMap Nat V) (hm : ∀ c < n, m.find (g c) = none) :
    ((List.range n).foldl (fun m c => SMap.insert m (g c) (f c)) m).size = m.size + n := by
  induction n with
  | zero => rfl
  | succ n ih =>
    rw [List.range_succ, List.foldl_append, List.foldl_cons, List.foldl_nil, SMap.size_insert_new,
      ih (fun c hc => hm c (by omega))]
    · omega
    · rw [find_foldl_insert_ne f g n m (g n) (fun c hc h => by have := hg _ _ h; omega)]
      exact hm n (by omega)

/-- Asking for the covariance of a block that is not part of the problem ends the process (if the labels fit). -/
theorem computeCovariance_abort {cs : CovSolver} {blocks : List Nat} {names : SMap Nat (List String)}
    {masks : SMap Nat (List Int)} (h1 : names.size = blocks.length)
    (h2 : ∀ b ∈ blocks, ∃ l, names.find b = some l ∧ (cs.blockSize b = none ∨ cs.blockSize b = some l.length))
    (h3 : ∃ b ∈ blocks, cs.blockSize b = none) : computeCovariance cs blocks names masks = .abort := by
  have key : ∀ (bs : List Nat) (s : Tangent), (∀ b ∈ bs, ∃ l, names.find b = some l ∧
      (cs.blockSize b = none ∨ cs.blockSize b = some l.length)) → (∃ b ∈ bs, cs.blockSize b = none) →
      Res.foldList (tangentBlock cs names masks) s bs = .abort := by
    intro bs
    induction bs with
    | nil => rintro s - ⟨b, hb, -⟩; cases hb
    | cons b bs ih =>
      intro s h hex
      rw [Res.foldList_cons]
      obtain ⟨l, hl, hn | hs⟩ := h b (by simp)
      · unfold tangentBlock; rw [hn]; rfl
      · have hex' : ∃ b ∈ bs, cs.blockSize b = none := by
          obtain ⟨b', hb', hn'⟩ := hex
          rcases List.mem_cons.1 hb' with rfl | hb'
          · rw [hs] at hn'; cases hn'
          · exact ⟨b', hb', hn'⟩
        obtain ⟨s', hs'⟩ : ∃ s', tangentBlock cs names masks s b = .ok s' := by
          unfold tangentBlock
          rw [hs]
          simp only [SMap.at', hl, Res.ok_bind]
          rw [if_neg (by simp)]
          obtain ⟨s', h1, -⟩ := tangentElems_ok l ((masks.find b).getD []) l.length 0 s (by omega)
          rw [← List.range_eq_range'] at h1
          rw [h1]
          exact ⟨_, rfl⟩
        rw [hs', Res.ok_bind]
        exact ih s' (fun b hb => h b (by simp [hb])) hex'
  unfold computeCovariance
  rw [if_neg (by simp [h1]), key blocks _ h2 h3]
  rfl

end RCT
