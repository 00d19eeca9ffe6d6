import Verif.Lemmas.Masks

/-!
# C16 – C20: masks and the quaternion plus operation
-/

namespace RCT

/-! ## C16 DH masks address exactly the chosen parameters -/

theorem createDHMask_mem (rows : Nat) (m : Nat → Nat → Bool) (k : Nat) :
    k ∈ createDHMask rows m ↔ ∃ r c, r < rows ∧ c < 4 ∧ m r c = true ∧ k = rows * c + r := by
  unfold createDHMask
  simp only [List.mem_flatMap, List.mem_range]
  constructor
  · rintro ⟨r, hr, c, hc, h⟩
    split at h
    · rename_i hm; exact ⟨r, c, hr, hc, hm, by simpa using h⟩
    · simp at h
  · rintro ⟨r, c, hr, hc, hm, rfl⟩
    exact ⟨r, hr, c, hc, by simp [hm]⟩

theorem colMajor_cells_eq (rows : Nat) : Spec.colMajorCells rows =
    (List.range rows).map (fun r => (r, (0 : Fin 4))) ++ (List.range rows).map (fun r => (r, 1)) ++
    (List.range rows).map (fun r => (r, 2)) ++ (List.range rows).map (fun r => (r, 3)) := by
  have : List.finRange 4 = [0, 1, 2, 3] := by rfl
  simp [Spec.colMajorCells, this]

theorem colMajor_get (rows : Nat) (r : Nat) (c : Fin 4) (k : Nat) :
    (Spec.colMajorCells rows)[k]? = some (r, c) ↔ r < rows ∧ k = rows * c + r := by
  rw [colMajor_cells_eq]
  simp only [List.getElem?_append, List.length_append, List.length_map, List.length_range, List.getElem?_map]
  constructor
  · intro h
    split at h
    · split at h
      · split at h
        · simp at h; grind
        · simp [List.getElem?_eq_some_iff] at h; grind
      · simp [List.getElem?_eq_some_iff] at h; grind
    · simp [List.getElem?_eq_some_iff] at h; grind
  · rintro ⟨hr, rfl⟩
    fin_cases c <;> simp <;> (repeat' split) <;> simp [List.getElem?_eq_some_iff] <;> omega

/-- The mask contains exactly the storage positions of the chosen cells. -/
theorem C16_positions (rows : Nat) (m : Nat → Nat → Bool) (k : Nat) :
    k ∈ createDHMask rows m ↔ ∃ r c, (Spec.colMajorCells rows)[k]? = some (r, c) ∧ m r c = true := by
  rw [createDHMask_mem]
  constructor
  · rintro ⟨r, c, hr, hc, hm, rfl⟩
    exact ⟨r, ⟨c, hc⟩, (colMajor_get _ _ _ _).2 ⟨hr, rfl⟩, hm⟩
  · rintro ⟨r, c, h, hm⟩
    obtain ⟨hr, rfl⟩ := (colMajor_get _ _ _ _).1 h
    exact ⟨r, c, hr, c.2, hm, rfl⟩

/-- No index is listed twice. -/
theorem C16_nodup (rows : Nat) (m : Nat → Nat → Bool) : (createDHMask rows m).Nodup := by
  unfold createDHMask
  rw [List.nodup_flatMap]
  constructor
  · intro r hr
    rw [List.mem_range] at hr
    rw [List.nodup_flatMap]
    constructor
    · intro c _; split <;> simp
    · refine List.Pairwise.imp_of_mem ?_ (List.nodup_range (n := 4))
      intro a b _ _ hab
      simp only [Function.onFun]
      intro x hx hy
      have h1 : x = rows * a + r := by split at hx <;> simp at hx; exact hx
      have h2 : x = rows * b + r := by split at hy <;> simp at hy; exact hy
      apply hab
      have : rows * a = rows * b := by omega
      exact Nat.eq_of_mul_eq_mul_left (by omega) this
  · refine List.Pairwise.imp_of_mem ?_ (List.nodup_range (n := rows))
    intro a b ha hb hab
    rw [List.mem_range] at ha hb
    intro x hx hy
    simp only [List.mem_flatMap, List.mem_range] at hx hy
    obtain ⟨c, hc, hx⟩ := hx
    obtain ⟨d, hd, hy⟩ := hy
    have h1 : x = rows * c + a := by split at hx <;> simp at hx; exact hx
    have h2 : x = rows * d + b := by split at hy <;> simp at hy; exact hy
    apply hab
    have e1 : x % rows = a := by rw [h1, Nat.mul_add_mod, Nat.mod_eq_of_lt ha]
    have e2 : x % rows = b := by rw [h2, Nat.mul_add_mod, Nat.mod_eq_of_lt hb]
    omega

/-- Every listed index lies inside the block of `4 * rows` parameters. -/
theorem C16_range (rows : Nat) (m : Nat → Nat → Bool) (k : Nat) (h : k ∈ createDHMask rows m) : k < 4 * rows := by
  obtain ⟨r, c, hr, hc, -, rfl⟩ := (createDHMask_mem _ _ _).1 h
  have : rows * c ≤ rows * 3 := Nat.mul_le_mul_left _ (by omega)
  omega

theorem concatLabels_eq (labels : List (Fin 4 → String)) : concatLabels labels =
    labels.map (fun l => l 0) ++ labels.map (fun l => l 1) ++ labels.map (fun l => l 2) ++ labels.map (fun l => l 3) := by
  have : List.finRange 4 = [0, 1, 2, 3] := by rfl
  simp [concatLabels, this]

theorem concatLabels_get (labels : List (Fin 4 → String)) (r : Nat) (c : Fin 4) (hr : r < labels.length) :
    (concatLabels labels)[labels.length * c + r]? = some (labels[r] c) := by
  rw [concatLabels_eq]
  simp only [List.getElem?_append, List.length_append, List.length_map, List.getElem?_map]
  have key : ∀ k, k = r → labels[k]? = some labels[r] := by rintro _ rfl; exact List.getElem?_eq_getElem hr
  fin_cases c <;> simp <;> (repeat' split) <;> (try omega) <;> (try rw [key _ (by omega)]; rfl)

/-- The label stored at an index is the label of the joint and parameter of the cell stored there. -/
theorem C16_labels (labels : List (Fin 4 → String)) (k r : Nat) (c : Fin 4)
    (h : (Spec.colMajorCells labels.length)[k]? = some (r, c)) :
    ∃ hr : r < labels.length, (concatLabels labels)[k]? = some (labels[r] c) := by
  obtain ⟨hr, rfl⟩ := (colMajor_get _ _ _ _).1 h
  exact ⟨hr, concatLabels_get _ _ _ hr⟩

/-- Non-vacuity: in a table of 2 joints the chosen cell (joint 1, parameter 2) has index 5. -/
example : createDHMask 2 (fun r c => r == 1 && c == 2) = [5] ∧ (Spec.colMajorCells 2)[5]? = some (1, 2) := by decide

/-! ## C17 Masked parameters are frozen and only those -/

/-- The indices that the mask map names for a block. -/
def Block.requested (masks : SMap Nat (List Int)) (b : Block) : List Int := (masks.find b.addr).getD []

/-- The inputs are C++ `int`s. -/
def MaskWF (blocks : List Block) (masks : SMap Nat (List Int)) : Prop :=
  ∀ b ∈ blocks, b.size < 2 ^ 31 ∧ ∀ i ∈ b.requested masks, IsInt i

theorem requested_empty (b : Block) {masks : SMap Nat (List Int)} (h : masks.isEmpty = true) : b.requested masks = [] := by
  have : masks = [] := by simpa using h
  subst this; rfl

theorem maskBlock_nil (masks : SMap Nat (List Int)) (b : Block) (h : b.requested masks = []) :
    maskBlock masks b = (b, .ok ()) := by
  unfold Block.requested at h; unfold maskBlock
  cases hf : masks.find b.addr with
  | none => rfl
  | some m => simp [hf] at h; simp [h]

theorem maskBlock_cons (masks : SMap Nat (List Int)) (b : Block) (h : b.requested masks ≠ []) :
    maskBlock masks b =
      if toSizeT (maxElement (sortUnique (b.requested masks))) ≥ b.size then (b, .throw .optimization)
      else if (sortUnique (b.requested masks)).length ≥ b.size then ({ b with constant := true }, .ok ())
      else if subsetOk b.size (sortUnique (b.requested masks)) then
        ({ b with subset := some (sortUnique (b.requested masks)) }, .ok ())
      else (b, .abort) := by
  unfold Block.requested at h ⊢; unfold maskBlock
  cases hf : masks.find b.addr with
  | none => simp [hf] at h
  | some m => simp [hf] at h ⊢; simp [h]

/-- With the map empty the loop would do nothing either. -/
theorem addSubset_eq_loop (blocks : List Block) (masks : SMap Nat (List Int)) :
    addSubsetParameterization blocks masks = maskLoop masks blocks := by
  unfold addSubsetParameterization
  split
  · rename_i h
    induction blocks with
    | nil => rfl
    | cons b bs ih => simp [maskLoop, maskBlock_nil _ _ (requested_empty b h), ← ih]
  · rfl

theorem maskLoop_ok (masks : SMap Nat (List Int)) (blocks blocks' : List Block) :
    maskLoop masks blocks = (blocks', .ok ()) ↔
      List.Forall₂ (fun b b' => maskBlock masks b = (b', .ok ())) blocks blocks' := by
  induction blocks generalizing blocks' with
  | nil =>
    simp only [maskLoop, List.forall₂_nil_left_iff, Prod.mk.injEq, and_true]
    exact eq_comm
  | cons b bs ih =>
    simp only [maskLoop]
    rcases hb : maskBlock masks b with ⟨b', e⟩
    cases e with
    | ok u =>
      cases u
      constructor
      · intro h
        simp only [Prod.mk.injEq] at h
        rw [← h.1]
        refine .cons hb ((ih _).1 ?_)
        rw [← h.2]
      · intro h
        cases h with
        | cons h1 h2 =>
          rw [hb] at h1; cases h1
          have := (ih _).2 h2
          simp [this]
    | throw e => simp; intro h; cases h with | cons h1 h2 => rw [hb] at h1; cases h1
    | abort => simp; intro h; cases h with | cons h1 h2 => rw [hb] at h1; cases h1
    | ub => simp; intro h; cases h with | cons h1 h2 => rw [hb] at h1; cases h1

theorem maskBlock_effect (masks : SMap Nat (List Int)) (b b' : Block) 
    (hi : ∀ i ∈ b.requested masks, IsInt i ∧ 0 ≤ i) (h : maskBlock masks b = (b', .ok ())) :
    b'.addr = b.addr ∧ b'.size = b.size ∧ (b.requested masks = [] → b' = b) ∧
    (b.subset = none → ∀ k : Nat, k < b.size → (b'.Held k ↔ b.Held k ∨ (k : Int) ∈ b.requested masks)) ∧
    (b.requested masks ≠ [] → (∀ k : Nat, k < b.size → (k : Int) ∈ b.requested masks) → b'.constant = true) ∧
    (b.requested masks ≠ [] → ∀ i ∈ b.requested masks, i < b.size) := by
  by_cases hr : b.requested masks = []
  · rw [maskBlock_nil _ _ hr] at h
    cases h
    simp [hr]
  · rw [maskBlock_cons _ _ hr] at h
    have hne := sortUnique_ne_nil hr
    have hmax := maxElement_mem hne
    rw [mem_sortUnique] at hmax
    have hm := hi _ hmax
    rw [toSizeT_nonneg hm.1 hm.2] at h
    split at h
    · simp at h
    · rename_i hlt
      have hrange : ∀ x ∈ b.requested masks, 0 ≤ x ∧ x < b.size := by
        intro x hx
        have h1 := le_maxElement ((mem_sortUnique _ _).2 hx)
        have := hi x hx
        omega
      have hrange' : ∀ x ∈ sortUnique (b.requested masks), 0 ≤ x ∧ x < b.size := by
        intro x hx; exact hrange x ((mem_sortUnique _ _).1 hx)
      split at h
      · rename_i hlen
        cases h
        refine ⟨rfl, rfl, fun h => absurd h hr, ?_, fun _ _ => rfl, fun _ i hi => (hrange i hi).2⟩
        intro _ k hk
        have := mem_of_full (sortUnique_nodup _) hrange' hlen k hk
        rw [mem_sortUnique] at this
        simp [Block.Held, this]
      · rename_i hlen
        split at h
        · cases h
          refine ⟨rfl, rfl, fun h => absurd h hr, ?_, ?_, fun _ i hi => (hrange i hi).2⟩
          · intro hsub k hk
            simp [Block.Held, hsub, mem_sortUnique]
          · intro _ hall
            exfalso
            apply hlen
            have hsub : (List.range b.size).map (fun k : Nat => (k : Int)) ⊆ sortUnique (b.requested masks) := by
              intro x hx
              obtain ⟨k, hk, rfl⟩ := List.mem_map.1 hx
              exact (mem_sortUnique _ _).2 (hall k (List.mem_range.1 hk))
            have hnd : ((List.range b.size).map (fun k : Nat => (k : Int))).Nodup :=
              List.Nodup.map (fun a b h => by simpa using h) List.nodup_range
            have := (hnd.subperm hsub).length_le
            simpa using this
        · simp at h

/-- After a successful call with non-negative indices: blocks keep their place and size, blocks without a mask are
untouched, in a block without an earlier subset parameterization exactly the listed elements become constant, and a
completely listed block is constant as a whole. -/
theorem C17_frozen (blocks blocks' : List Block) (masks : SMap Nat (List Int)) (hwf : MaskWF blocks masks)
    (hnn : ∀ b ∈ blocks, ∀ i ∈ b.requested masks, 0 ≤ i)
    (h : addSubsetParameterization blocks masks = (blocks', .ok ())) :
    List.Forall₂ (fun b b' => b'.addr = b.addr ∧ b'.size = b.size ∧ (b.requested masks = [] → b' = b) ∧
      (b.subset = none → ∀ k : Nat, k < b.size → (b'.Held k ↔ b.Held k ∨ (k : Int) ∈ b.requested masks)) ∧
      (b.requested masks ≠ [] → (∀ k : Nat, k < b.size → (k : Int) ∈ b.requested masks) → b'.constant = true)) blocks blocks' := by
  rw [addSubset_eq_loop, maskLoop_ok] at h
  rw [List.forall₂_iff_get] at h ⊢
  refine ⟨h.1, fun i h1 h2 => ?_⟩
  have hmem : blocks.get ⟨i, h1⟩ ∈ blocks := List.get_mem _ _
  have := maskBlock_effect masks _ _ (fun x hx => ⟨(hwf _ hmem).2 x hx, hnn _ hmem x hx⟩) (h.2 i h1 h2)
  exact ⟨this.1, this.2.1, this.2.2.1, this.2.2.2.1, this.2.2.2.2.1⟩

theorem maskBlock_good (masks : SMap Nat (List Int)) (b : Block)
    (hi : ∀ i ∈ b.requested masks, IsInt i ∧ 0 ≤ i ∧ i < b.size) : ∃ b', maskBlock masks b = (b', .ok ()) := by
  by_cases hr : b.requested masks = []
  · exact ⟨b, maskBlock_nil _ _ hr⟩
  · rw [maskBlock_cons _ _ hr]
    have hmax := maxElement_mem (sortUnique_ne_nil hr)
    rw [mem_sortUnique] at hmax
    have hm := hi _ hmax
    rw [toSizeT_nonneg hm.1 hm.2.1, if_neg (by omega)]
    split
    · exact ⟨_, rfl⟩
    · rw [if_pos]
      · exact ⟨_, rfl⟩
      · simp only [subsetOk, Bool.and_eq_true, List.all_eq_true, decide_eq_true_eq]
        exact ⟨fun x hx => (hi x ((mem_sortUnique _ _).1 hx)).2, sortUnique_nodup _⟩

/-- Masks whose indices all lie in their blocks are always accepted. -/
theorem C17_accepts (blocks : List Block) (masks : SMap Nat (List Int)) (hwf : MaskWF blocks masks)
    (hin : ∀ b ∈ blocks, ∀ i ∈ b.requested masks, 0 ≤ i ∧ i < b.size) :
    ∃ blocks', addSubsetParameterization blocks masks = (blocks', .ok ()) := by
  simp only [addSubset_eq_loop, maskLoop_ok]
  induction blocks with
  | nil => exact ⟨[], .nil⟩
  | cons b bs ih =>
    obtain ⟨bs', h'⟩ := ih (fun x hx => hwf x (by simp [hx])) (fun x hx => hin x (by simp [hx]))
    obtain ⟨b', hb⟩ := maskBlock_good masks b (fun i hi => ⟨(hwf b (by simp)).2 i hi, hin b (by simp) i hi⟩)
    exact ⟨b' :: bs', .cons hb h'⟩

/-- Non-vacuity: two blocks, one mask with a duplicate, one complete mask. -/
example : addSubsetParameterization [⟨10, 3, false, none⟩, ⟨20, 2, false, none⟩, ⟨30, 4, false, none⟩]
    [(20, [1, 0]), (10, [2, 0, 2])] =
    ([⟨10, 3, false, some [0, 2]⟩, ⟨20, 2, true, none⟩, ⟨30, 4, false, none⟩], .ok ()) := by decide

/-! ## C18 Invalid masks are rejected

Full statement: for all well-formed inputs, if some block `b` has a requested index `i < 0` or `i ≥ b.size` then
`(addSubsetParameterization blocks masks).2.Throws`. It is false for negative indices. -/

/-- A negative index can be accepted silently, and then element 2, which was not listed, is frozen too. -/
theorem C18_negation : ∃ blocks masks blocks', MaskWF blocks masks ∧
    (∃ b ∈ blocks, ∃ i ∈ b.requested masks, i < 0) ∧
    addSubsetParameterization blocks masks = (blocks', .ok ()) ∧
    ∃ b ∈ blocks, ∃ b' ∈ blocks', b'.addr = b.addr ∧ (2 : Int) ∉ b.requested masks ∧ ¬ b.Held 2 ∧ b'.Held 2 := by
  refine ⟨[⟨10, 3, false, none⟩], [(10, [-1, 0, 1])], [⟨10, 3, true, none⟩], ?_, ?_, by decide, ?_⟩
  · intro b hb
    simp only [List.mem_singleton] at hb
    subst hb
    refine ⟨by decide, ?_⟩
    intro i hi
    simp [Block.requested, SMap.find, List.lookup] at hi
    unfold IsInt
    omega
  · exact ⟨_, List.mem_singleton.2 rfl, -1, by decide, by decide⟩
  · exact ⟨_, List.mem_singleton.2 rfl, _, List.mem_singleton.2 rfl, rfl, by decide, by simp [Block.Held], by simp [Block.Held]⟩

theorem maskLoop_not_ok (masks : SMap Nat (List Int)) (blocks : List Block)
    (h : ∀ blocks', maskLoop masks blocks ≠ (blocks', .ok ())) :
    ∃ pre b suf pre', blocks = pre ++ b :: suf ∧
      List.Forall₂ (fun b b' => maskBlock masks b = (b', .ok ())) pre pre' ∧
      (∀ u, (maskBlock masks b).2 ≠ .ok u) ∧ maskLoop masks blocks = (pre' ++ b :: suf, (maskBlock masks b).2) := by
  induction blocks with
  | nil => exact absurd rfl (h [])
  | cons b bs ih =>
    rcases hb : maskBlock masks b with ⟨b', e⟩
    by_cases he : e = .ok ()
    · subst he
      have : ∀ blocks', maskLoop masks bs ≠ (blocks', .ok ()) := by
        intro bs' hbs
        exact h (b' :: bs') (by simp [maskLoop, hb, hbs])
      obtain ⟨pre, c, suf, pre', h1, h2, h3, h4⟩ := ih this
      refine ⟨b :: pre, c, suf, b' :: pre', by simp [h1], .cons hb h2, h3, ?_⟩
      simp [maskLoop, hb, h4]
    · have hb' : b' = b := by
        by_cases hr : b.requested masks = []
        · rw [maskBlock_nil _ _ hr] at hb; cases hb; rfl
        · rw [maskBlock_cons _ _ hr] at hb
          split at hb
          · cases hb; rfl
          · split at hb
            · cases hb; exact absurd rfl he
            · split at hb
              · cases hb; exact absurd rfl he
              · cases hb; rfl
      subst hb'
      refine ⟨[], b', bs, [], rfl, .nil, ?_, ?_⟩
      · intro u; cases u; rw [hb]; exact he
      · rw [hb]
        cases e with
        | ok u => cases u; exact absurd rfl he
        | throw e => simp [maskLoop, hb]
        | abort => simp [maskLoop, hb]
        | ub => simp [maskLoop, hb]

/-- For masks over the non-negative integers the check is exact: the call throws if and only if some index is outside
its block. -/
theorem C18_partial (blocks : List Block) (masks : SMap Nat (List Int)) (hwf : MaskWF blocks masks)
    (hnn : ∀ b ∈ blocks, ∀ i ∈ b.requested masks, 0 ≤ i) :
    (addSubsetParameterization blocks masks).2.Throws ↔ ∃ b ∈ blocks, ∃ i ∈ b.requested masks, (b.size : Int) ≤ i := by
  constructor
  · intro h
    by_contra hcon
    push Not at hcon
    obtain ⟨bs, hbs⟩ := C17_accepts blocks masks hwf (fun b hb i hi => ⟨hnn b hb i hi, hcon b hb i hi⟩)
    rw [hbs] at h
    simp at h
  · rintro ⟨b, hb, i, hi, hlt⟩
    rw [addSubset_eq_loop]
    have hno : ∀ blocks', maskLoop masks blocks ≠ (blocks', .ok ()) := by
      intro bs h
      rw [maskLoop_ok] at h
      rw [List.forall₂_iff_get] at h
      obtain ⟨n, hn, rfl⟩ := List.getElem_of_mem hb
      have h2 := h.2 n hn (h.1 ▸ hn)
      have := maskBlock_effect masks _ _ (fun x hx => ⟨(hwf _ hb).2 x hx, hnn _ hb x hx⟩) h2
      have := this.2.2.2.2.2 (List.ne_nil_of_mem hi) i hi
      omega
    obtain ⟨pre, c, suf, pre', h1, -, h3, h4⟩ := maskLoop_not_ok masks blocks hno
    rw [h4]
    have hc : c ∈ blocks := by simp [h1]
    by_cases hr : c.requested masks = []
    · exact absurd (by rw [maskBlock_nil _ _ hr]) (h3 ())
    · rw [maskBlock_cons _ _ hr] at h3 ⊢
      have hmax := maxElement_mem (sortUnique_ne_nil hr)
      rw [mem_sortUnique] at hmax
      have hm := (hwf c hc).2 _ hmax
      have hm' := hnn c hc _ hmax
      split
      · simp
      · rename_i hlt'
        rw [if_neg hlt'] at h3
        rw [toSizeT_nonneg hm hm'] at hlt'
        split
        · rename_i hlen
          rw [if_pos hlen] at h3
          exact absurd rfl (h3 ())
        · rename_i hlen
          rw [if_neg hlen] at h3
          have hok : subsetOk c.size (sortUnique (c.requested masks)) = true := by
            simp only [subsetOk, Bool.and_eq_true, List.all_eq_true, decide_eq_true_eq]
            refine ⟨fun x hx => ?_, sortUnique_nodup _⟩
            have := le_maxElement hx
            rw [mem_sortUnique] at hx
            have := hnn c hc x hx
            omega
          rw [if_pos hok] at h3
          exact absurd rfl (h3 ())

/-- Over all integers: the call returns normally exactly when every block's mask is either entirely in range, or has
largest index in range, a negative index, and at least as many distinct indices as the block has elements (the hole in
the check). -/
theorem C18_partial_returns_iff (blocks : List Block) (masks : SMap Nat (List Int)) (hwf : MaskWF blocks masks) :
    (addSubsetParameterization blocks masks).2.Returns ↔ ∀ b ∈ blocks,
      (∀ i ∈ b.requested masks, 0 ≤ i ∧ i < b.size) ∨
      (b.requested masks ≠ [] ∧ (∀ i ∈ b.requested masks, i < b.size) ∧ (∃ i ∈ b.requested masks, 0 ≤ i) ∧
        b.size ≤ (sortUnique (b.requested masks)).length) := by
  have key : ∀ b ∈ blocks, (∃ b', maskBlock masks b = (b', .ok ())) ↔
      ((∀ i ∈ b.requested masks, 0 ≤ i ∧ i < b.size) ∨
      (b.requested masks ≠ [] ∧ (∀ i ∈ b.requested masks, i < b.size) ∧ (∃ i ∈ b.requested masks, 0 ≤ i) ∧
        b.size ≤ (sortUnique (b.requested masks)).length)) := by
    intro b hb
    by_cases hr : b.requested masks = []
    · simp [maskBlock_nil _ _ hr, hr]
    · rw [maskBlock_cons _ _ hr]
      have hmax' := maxElement_mem (sortUnique_ne_nil hr)
      have hmax := (mem_sortUnique _ _).1 hmax'
      have hm := (hwf b hb).2 _ hmax
      have hsz := (hwf b hb).1
      constructor
      · rintro ⟨b', h⟩
        split at h
        · simp at h
        · rename_i hlt
          have h0 : 0 ≤ maxElement (sortUnique (b.requested masks)) := by
            by_contra hneg
            have := toSizeT_neg hm (by omega)
            omega
          rw [toSizeT_nonneg hm h0] at hlt
          have hub : ∀ i ∈ b.requested masks, i < b.size := by
            intro i hi
            have := le_maxElement ((mem_sortUnique _ _).2 hi)
            omega
          split at h
          · rename_i hlen
            exact Or.inr ⟨hr, hub, ⟨_, hmax, h0⟩, hlen⟩
          · split at h
            · rename_i hok
              simp only [subsetOk, Bool.and_eq_true, List.all_eq_true, decide_eq_true_eq] at hok
              exact Or.inl fun i hi => hok.1 i ((mem_sortUnique _ _).2 hi)
            · simp at h
      · rintro (h | ⟨-, hub, ⟨i, hi, hi0⟩, hlen⟩)
        · rw [← maskBlock_cons _ _ hr]
          exact maskBlock_good _ _ fun i hi => ⟨(hwf b hb).2 i hi, h i hi⟩
        · have h1 := le_maxElement ((mem_sortUnique _ _).2 hi)
          have h2 := hub _ hmax
          rw [toSizeT_nonneg hm (by omega), if_neg (by omega), if_pos hlen]
          exact ⟨_, rfl⟩
  have e1 : (addSubsetParameterization blocks masks).2.Returns ↔
      ∃ blocks', maskLoop masks blocks = (blocks', .ok ()) := by
    rw [addSubset_eq_loop]
    constructor
    · rintro ⟨u, hu⟩; exact ⟨_, Prod.ext rfl hu⟩
    · rintro ⟨bs, hbs⟩; rw [hbs]; exact ⟨(), rfl⟩
  rw [e1]
  simp only [maskLoop_ok]
  constructor
  · rintro ⟨bs, h⟩ b hb
    rw [List.forall₂_iff_get] at h
    obtain ⟨n, hn, rfl⟩ := List.getElem_of_mem hb
    exact (key _ hb).1 ⟨_, h.2 n hn (h.1 ▸ hn)⟩
  · intro h
    clear e1 hwf
    induction blocks with
    | nil => exact ⟨[], .nil⟩
    | cons b bs ih =>
      obtain ⟨b', hb'⟩ := (key b (by simp)).2 (h b (by simp))
      obtain ⟨bs', hbs'⟩ := ih (fun c hc => key c (by simp [hc])) (fun c hc => h c (by simp [hc]))
      exact ⟨b' :: bs', .cons hb' hbs'⟩

/-- Non-vacuity of the hypotheses of `C18_partial`, with an index outside its block. -/
example : (addSubsetParameterization [⟨10, 3, false, none⟩] [(10, [3, 0])]).2 = .throw .optimization := by decide

/-! ## C19 A rejected mask leaves the problem untouched

Full statement: if `(addSubsetParameterization blocks masks).2` is not `ok` then
`(addSubsetParameterization blocks masks).1 = blocks`. It is false: blocks before the rejected one are already
changed. -/

theorem C19_negation : ∃ blocks masks, MaskWF blocks masks ∧ (addSubsetParameterization blocks masks).2.Throws ∧
    (addSubsetParameterization blocks masks).1 ≠ blocks := by
  refine ⟨[⟨10, 3, false, none⟩, ⟨20, 2, false, none⟩], [(10, [0]), (20, [2])], ?_, ?_, by decide⟩
  · intro b hb
    simp only [List.mem_cons, List.not_mem_nil, or_false] at hb
    rcases hb with rfl | rfl
    · refine ⟨by decide, ?_⟩
      intro i hi
      simp [Block.requested, SMap.find, List.lookup] at hi
      unfold IsInt; omega
    · refine ⟨by decide, ?_⟩
      intro i hi
      simp [Block.requested, SMap.find, List.lookup] at hi
      unfold IsInt; omega
  · exact ⟨.optimization, by decide⟩

/-- What does hold: when the call does not return, the blocks split into those in front of a block with a bad mask,
which were processed as usual, and the block itself with everything behind it, which are unchanged. In particular
nothing changed if no block in front of it has a mask. -/
theorem C19_partial (blocks : List Block) (masks : SMap Nat (List Int))
    (h : ¬ (addSubsetParameterization blocks masks).2.Returns) :
    ∃ pre b suf pre', blocks = pre ++ b :: suf ∧ b.requested masks ≠ [] ∧
      (addSubsetParameterization blocks masks).1 = pre' ++ b :: suf ∧
      addSubsetParameterization pre masks = (pre', .ok ()) ∧
      ((∀ c ∈ pre, c.requested masks = []) → pre' = pre) := by
  rw [addSubset_eq_loop] at h
  have hno : ∀ blocks', maskLoop masks blocks ≠ (blocks', .ok ()) := by
    intro bs hbs; rw [hbs] at h; simp at h
  obtain ⟨pre, b, suf, pre', h1, h2, h3, h4⟩ := maskLoop_not_ok masks blocks hno
  refine ⟨pre, b, suf, pre', h1, ?_, by rw [addSubset_eq_loop, h4], by rw [addSubset_eq_loop, maskLoop_ok]; exact h2, ?_⟩
  · intro hr; exact h3 () (by rw [maskBlock_nil _ _ hr])
  · intro hall
    clear h1 h4
    induction h2 with
    | nil => rfl
    | cons hb _ ih =>
      rw [maskBlock_nil _ _ (hall _ (by simp))] at hb
      cases hb
      rw [ih (fun c hc => hall c (by simp [hc]))]

/-! ## C20 Quaternion update stays on the unit sphere -/

theorem C20_unit (x : Quat) (d : V3) (hx : x.IsUnit) : (quaternionPlus x d).IsUnit := by
  unfold quaternionPlus
  set n := Real.sqrt (d.x * d.x + d.y * d.y + d.z * d.z) with hn
  have hsq : n * n = d.x * d.x + d.y * d.y + d.z * d.z := Real.mul_self_sqrt (by nlinarith [mul_self_nonneg d.x, mul_self_nonneg d.y, mul_self_nonneg d.z])
  apply Quat.IsUnit.mul _ hx
  split
  · rename_i hpos
    have hne : n ≠ 0 := ne_of_gt hpos
    have hcs := Real.cos_sq_add_sin_sq n
    simp only [Quat.IsUnit, Quat.normSq]
    have : Real.sin n / n * d.x * (Real.sin n / n * d.x) + Real.sin n / n * d.y * (Real.sin n / n * d.y)
        + Real.sin n / n * d.z * (Real.sin n / n * d.z) = (Real.sin n / n) ^ 2 * (n * n) := by rw [hsq]; ring
    have h2 : (Real.sin n / n) ^ 2 * (n * n) = Real.sin n ^ 2 := by field_simp
    linarith [sq (Real.cos n)]
  · rename_i hpos
    have h0 : n = 0 := le_antisymm (not_lt.1 hpos) (Real.sqrt_nonneg _)
    rw [h0] at hsq
    simp only [Quat.IsUnit, Quat.normSq]
    linarith

theorem C20_zero (x : Quat) : quaternionPlus x 0 = x := by
  cases x
  simp [quaternionPlus, Quat.mul_def]

/-- Every unit quaternion is reached from every other one by some update. -/
theorem C20_surjective (x y : Quat) (hx : x.IsUnit) (hy : y.IsUnit) : ∃ d : V3, quaternionPlus x d = y := by
  obtain ⟨q, hq⟩ : ∃ q, q = y * x.conj := ⟨_, rfl⟩
  have hqu : q.IsUnit := hq ▸ hy.mul hx.conj
  have hqx : q * x = y := by
    rw [hq, Quat.mul_assoc, Quat.conj_mul hx]
    cases y; simp [Quat.mul_def, Quat.one]
  clear hq
  obtain ⟨w, a, b, c⟩ := q
  obtain ⟨s, hs⟩ : ∃ s, s = Real.sqrt (a * a + b * b + c * c) := ⟨_, rfl⟩
  have hnn : 0 ≤ a * a + b * b + c * c := by nlinarith [mul_self_nonneg a, mul_self_nonneg b, mul_self_nonneg c]
  have hss : s * s = a * a + b * b + c * c := hs ▸ Real.mul_self_sqrt hnn
  have hs0 : 0 ≤ s := hs ▸ Real.sqrt_nonneg _
  have hw : w * w + s * s = 1 := by rw [hss]; simpa [Quat.IsUnit, Quat.normSq, add_assoc] using hqu
  rcases hs0.eq_or_lt with h0 | hpos
  · rw [← h0] at hss
    have ha : a = 0 := by nlinarith [mul_self_nonneg a, mul_self_nonneg b, mul_self_nonneg c]
    have hb : b = 0 := by nlinarith [mul_self_nonneg a, mul_self_nonneg b, mul_self_nonneg c]
    have hc : c = 0 := by nlinarith [mul_self_nonneg a, mul_self_nonneg b, mul_self_nonneg c]
    have hw1 : w * w = 1 := by rw [← h0] at hw; linarith
    subst ha hb hc
    rcases mul_self_eq_one_iff.1 hw1 with rfl | rfl
    · refine ⟨0, ?_⟩
      rw [C20_zero, ← hqx]
      cases x; simp [Quat.mul_def]
    · refine ⟨⟨Real.pi, 0, 0⟩, ?_⟩
      have hpi := Real.pi_pos
      have e : Real.sqrt (Real.pi * Real.pi + 0 * 0 + 0 * 0) = Real.pi := by
        rw [zero_mul, add_zero, add_zero, Real.sqrt_mul_self hpi.le]
      unfold quaternionPlus
      simp only [e]
      rw [if_pos hpi, ← hqx]
      simp
  · obtain ⟨n, hn⟩ : ∃ n, n = Real.arccos w := ⟨_, rfl⟩
    have hwle : -1 ≤ w ∧ w ≤ 1 := by constructor <;> nlinarith
    have hcos : Real.cos n = w := hn ▸ Real.cos_arccos hwle.1 hwle.2
    have hsin : Real.sin n = s := by
      rw [hn, Real.sin_arccos, ← Real.sqrt_mul_self hs0]
      congr 1; nlinarith
    have hn0 : 0 < n := by
      rcases (hn ▸ Real.arccos_nonneg w : 0 ≤ n).eq_or_lt with h | h
      · exfalso
        rw [← h, Real.sin_zero] at hsin
        linarith
      · exact h
    have hsne : s ≠ 0 := ne_of_gt hpos
    have hnne : n ≠ 0 := ne_of_gt hn0
    refine ⟨⟨n / s * a, n / s * b, n / s * c⟩, ?_⟩
    have e : Real.sqrt (n / s * a * (n / s * a) + n / s * b * (n / s * b) + n / s * c * (n / s * c)) = n := by
      have e1 : n / s * a * (n / s * a) + n / s * b * (n / s * b) + n / s * c * (n / s * c)
          = (n / s) ^ 2 * (s * s) := by rw [hss]; ring
      have e2 : (n / s) ^ 2 * (s * s) = n * n := by field_simp
      rw [e1, e2, Real.sqrt_mul_self hn0.le]
    unfold quaternionPlus
    simp only [e]
    rw [if_pos hn0, hcos, hsin, ← hqx]
    have h1 : ∀ a : ℝ, s / n * (n / s * a) = a := fun a => by field_simp
    rw [h1, h1, h1]

/-- Non-vacuity: a unit quaternion that is not the identity. -/
example : (⟨3/5, 4/5, 0, 0⟩ : Quat).IsUnit := by norm_num [Quat.IsUnit, Quat.normSq]

/-- The update turns by twice the length of the update vector about its direction, after the old rotation. -/
theorem C20_rotation (x : Quat) (d : V3) (hx : x.IsUnit) (hd : d ≠ 0) :
    (quaternionPlus x d).toMat = AngleAxis.toMat ⟨2 * d.norm, V3.smul (1 / d.norm) d⟩ * x.toMat := by
  have hn : Real.sqrt (d.x * d.x + d.y * d.y + d.z * d.z) = d.norm := rfl
  have hsq : d.norm * d.norm = d.x * d.x + d.y * d.y + d.z * d.z := by
    rw [← hn]; exact Real.mul_self_sqrt (by nlinarith [mul_self_nonneg d.x, mul_self_nonneg d.y, mul_self_nonneg d.z])
  have hpos : 0 < d.norm := by
    refine lt_of_le_of_ne (Real.sqrt_nonneg _) fun h0 => hd ?_
    rw [← h0] at hsq
    exact V3.normSq_eq_zero.1 (by simp only [V3.normSq, V3.dot]; linarith)
  have hne := hpos.ne'
  unfold quaternionPlus
  simp only [hn, if_pos hpos]
  obtain ⟨n, hnn⟩ : ∃ n, n = d.norm := ⟨_, rfl⟩
  rw [← hnn] at hne hsq ⊢
  obtain ⟨a, ha⟩ : ∃ a, a = d.x / n := ⟨_, rfl⟩
  obtain ⟨b, hb⟩ : ∃ b, b = d.y / n := ⟨_, rfl⟩
  obtain ⟨c, hc⟩ : ∃ c, c = d.z / n := ⟨_, rfl⟩
  have h1 : a * a + b * b + c * c = 1 := by
    rw [ha, hb, hc]; field_simp; linarith
  have hv : V3.smul (1 / n) d = ⟨a, b, c⟩ := by
    rw [ha, hb, hc]; ext <;> simp [V3.smul] <;> ring
  have hq : (⟨Real.cos n, Real.sin n / n * d.x, Real.sin n / n * d.y, Real.sin n / n * d.z⟩ : Quat) =
      ⟨Real.cos n, Real.sin n * a, Real.sin n * b, Real.sin n * c⟩ := by
    rw [ha, hb, hc]; congr 1 <;> ring
  have hcs := Real.cos_sq_add_sin_sq n
  rw [hv, hq]
  have hu : Quat.IsUnit ⟨Real.cos n, Real.sin n * a, Real.sin n * b, Real.sin n * c⟩ := by
    simp only [Quat.IsUnit, Quat.normSq]
    linear_combination hcs + Real.sin n ^ 2 * h1
  rw [Quat.toMat_mul hu hx]
  congr 1
  simp only [Quat.toMat, AngleAxis.toMat, Real.cos_two_mul, Real.sin_two_mul]
  ext <;> simp only
  · linear_combination (2 * a * a - 2) * hcs - 2 * Real.sin n ^ 2 * h1
  · linear_combination 2 * a * b * hcs
  · linear_combination 2 * a * c * hcs
  · linear_combination 2 * b * a * hcs
  · linear_combination (2 * b * b - 2) * hcs - 2 * Real.sin n ^ 2 * h1
  · linear_combination 2 * b * c * hcs
  · linear_combination 2 * c * a * hcs
  · linear_combination 2 * c * b * hcs
  · linear_combination (2 * c * c - 2) * hcs - 2 * Real.sin n ^ 2 * h1

example : ∃ (x : Quat) (d : V3), x.IsUnit ∧ d ≠ 0 :=
  ⟨⟨0, 1, 0, 0⟩, ⟨0, 0, 1⟩, by simp [Quat.IsUnit, Quat.normSq], by intro h; have := congrArg V3.z h; simp at this⟩

end RCT
