import Verif.Core.Res
import Mathlib.Order.Defs.Unbundled

/-!
# Small models of the C++ standard library facilities used by the modelled code
-/

namespace RCT

/-- `static_cast<std::size_t>(int)` on a 64 bit platform: reduction modulo 2^64. -/
def toSizeT (i : Int) : Nat := (i % 2 ^ 64).toNat

/-- Range of a C++ `int`. -/
def IsInt (i : Int) : Prop := -2 ^ 31 ≤ i ∧ i < 2 ^ 31

theorem toSizeT_nonneg {i : Int} (h : IsInt i) (h0 : 0 ≤ i) : toSizeT i = i.toNat := by
  unfold IsInt at h; unfold toSizeT; omega

theorem toSizeT_neg {i : Int} (h : IsInt i) (h0 : i < 0) : 2 ^ 63 ≤ toSizeT i := by
  unfold IsInt at h; unfold toSizeT; omega

/-- Multiplication of `std::size_t` values (64 bit, wraps around). -/
def szMul (a b : Nat) : Nat := (a * b) % 2 ^ 64

/-- Subtraction of `std::size_t` values (64 bit, wraps around). -/
def szSub (a b : Nat) : Nat := (a + 2 ^ 64 - b) % 2 ^ 64

/-- `std::map<K, V>` as an association list. Keys are added with `SMap.insert` only, which keeps them distinct. -/
abbrev SMap (K V : Type _) := List (K × V)

namespace SMap
variable {K V : Type _} [DecidableEq K]

/-- `map.find(k)` -/
def find (m : SMap K V) (k : K) : Option V := List.lookup k m

/-- `map[k] = v` -/
def insert (m : SMap K V) (k : K) (v : V) : SMap K V :=
  if (m.map Prod.fst).contains k then m.map fun e => if e.1 = k then (k, v) else e else m ++ [(k, v)]

/-- `map.size()` -/
def size (m : SMap K V) : Nat := m.length

/-- `map.at(k)` -/
def at' (m : SMap K V) (k : K) : Res V :=
  match m.find k with
  | some v => .ok v
  | none => .throw .outOfRange

theorem find_insert (m : SMap K V) (k : K) (v : V) (k' : K) :
    (m.insert k v).find k' = if k' = k then some v else m.find k' := by
  unfold insert find
  split
  · rename_i h
    induction m with
    | nil => simp at h
    | cons e m ih =>
      obtain ⟨a, b⟩ := e
      by_cases hk : k' = k
      · subst hk
        by_cases ha : a = k'
        · subst ha; simp
        · have h' : (List.map Prod.fst m).contains k' = true := by
            simp only [List.map_cons, List.contains_cons, Bool.or_eq_true, beq_iff_eq] at h
            rcases h with h | h
            · exact absurd h.symm ha
            · exact h
          have := ih h'
          have hb : (k' == a) = false := by simp; exact fun h => ha h.symm
          simp only [if_pos] at this
          simp [List.lookup, ha, hb, this]
      · rw [if_neg hk]
        clear ih h
        generalize hm : (a, b) :: m = l
        clear hm
        induction l with
        | nil => rfl
        | cons e l ih =>
          obtain ⟨c, d⟩ := e
          by_cases hc : c = k
          · subst hc
            have : (k' == c) = false := by simp [hk]
            simp [List.lookup, this, ih]
          · by_cases hkc : k' = c
            · subst hkc; simp [List.lookup, hc]
            · have : (k' == c) = false := by simp [hkc]
              simp [List.lookup, hc, this, ih]
  · rename_i h
    induction m with
    | nil =>
      by_cases hk : k' = k
      · subst hk; simp
      · have : (k' == k) = false := by simp [hk]
        simp [List.lookup, hk, this]
    | cons e m ih =>
      obtain ⟨a, b⟩ := e
      simp only [List.map_cons, List.contains_cons, Bool.or_eq_true, beq_iff_eq, not_or] at h
      have := ih (by simpa using h.2)
      by_cases hka : k' = a
      · subst hka
        have hne : ¬ k' = k := fun hh => h.1 hh.symm
        simp [List.lookup, hne]
      · have hb : (k' == a) = false := by simp [hka]
        simp [List.lookup, hb, this]

end SMap

/-- Contract of `std::sort(first, last, comp)` for a strict weak order `comp`: a permutation in which no later element
is `comp`-before an earlier one. The order of equivalent elements is unspecified. -/
def IsStdSort {α} (sort : (α → α → Bool) → List α → List α) : Prop :=
  ∀ comp : α → α → Bool, (∀ a, comp a a = false) →
    (∀ a b c, comp a b = true → comp b c = true → comp a c = true) →
    (∀ a b c, comp a b = false → comp b a = false → comp b c = false → comp c b = false →
      comp a c = false ∧ comp c a = false) →
    ∀ l, (sort comp l).Perm l ∧ (sort comp l).Pairwise fun a b => comp b a = false

end RCT
