import Mathlib.Data.List.Forall2

/-!
# Outcomes of modelled code

`Res α` is the outcome of running a modelled C++ function: a value, a C++ exception, a process
abort (e.g. a fatal check inside ceres), or undefined behaviour.
-/

namespace RCT

/-- The exception classes that occur in the modelled code
(`rct_optimizations/include/rct_optimizations/types.h` 193-203 and the standard / yaml-cpp ones). -/
inductive Exc where
  | runtimeError
  | optimization
  | covariance
  | outOfRange
  | yaml
  | badFile
  | other
deriving DecidableEq, Repr

/-- Outcome of a call. -/
inductive Res (α : Type _) where
  | ok (a : α)
  | throw (e : Exc)
  | abort
  | ub
deriving DecidableEq, Repr

namespace Res

/-- Sequencing: the first non-`ok` outcome ends the computation. -/
def bind {α β} : Res α → (α → Res β) → Res β
  | ok a, f => f a
  | throw e, _ => throw e
  | abort, _ => abort
  | ub, _ => ub

@[simp] theorem ok_bind {α β} (a : α) (f : α → Res β) : (ok a).bind f = f a := rfl
@[simp] theorem throw_bind {α β} (e : Exc) (f : α → Res β) : (throw e : Res α).bind f = throw e := rfl
@[simp] theorem abort_bind {α β} (f : α → Res β) : (abort : Res α).bind f = abort := rfl
@[simp] theorem ub_bind {α β} (f : α → Res β) : (ub : Res α).bind f = ub := rfl

instance : Monad Res where
  pure := ok
  bind := bind

@[simp] theorem pure_eq {α} (a : α) : (Pure.pure a : Res α) = ok a := rfl
@[simp] theorem bind_eq {α β} (x : Res α) (f : α → Res β) : (x >>= f) = x.bind f := rfl

@[simp] theorem map_ok {α β} (f : α → β) (a : α) : (f <$> (ok a : Res α)) = ok (f a) := rfl

@[simp] theorem bind_ok_iff {α β} (x : Res α) (f : α → Res β) (b : β) :
    x.bind f = ok b ↔ ∃ a, x = ok a ∧ f a = ok b := by
  cases x <;> simp

/-- The call throws an exception. -/
def Throws {α} (r : Res α) : Prop := ∃ e, r = throw e

/-- The call returns normally. -/
def Returns {α} (r : Res α) : Prop := ∃ a, r = ok a

@[simp] theorem throws_ok {α} (a : α) : ¬ (ok a : Res α).Throws := by rintro ⟨e, h⟩; cases h
@[simp] theorem throws_throw {α} (e : Exc) : (throw e : Res α).Throws := ⟨e, rfl⟩
@[simp] theorem throws_ub {α} : ¬ (ub : Res α).Throws := by rintro ⟨e, h⟩; cases h
@[simp] theorem throws_abort {α} : ¬ (abort : Res α).Throws := by rintro ⟨e, h⟩; cases h
@[simp] theorem returns_ok {α} (a : α) : (ok a : Res α).Returns := ⟨a, rfl⟩
@[simp] theorem returns_throw {α} (e : Exc) : ¬ (throw e : Res α).Returns := by rintro ⟨a, h⟩; cases h
@[simp] theorem returns_ub {α} : ¬ (ub : Res α).Returns := by rintro ⟨a, h⟩; cases h
@[simp] theorem returns_abort {α} : ¬ (abort : Res α).Returns := by rintro ⟨a, h⟩; cases h

/-- `std::vector::at`: throws `std::out_of_range` outside the range. -/
def atList {α} (l : List α) (i : Nat) : Res α :=
  match l[i]? with
  | some a => ok a
  | none => throw .outOfRange

/-- `std::vector::operator[]`: undefined outside the range. -/
def idxList {α} (l : List α) (i : Nat) : Res α :=
  match l[i]? with
  | some a => ok a
  | none => ub

/-- Loop over a list, stopping at the first non-`ok` outcome. -/
def mapList {α β} (f : α → Res β) : List α → Res (List β)
  | [] => ok []
  | a :: l => (f a).bind fun b => (mapList f l).bind fun bs => ok (b :: bs)

theorem mapList_ok_iff {α β} (f : α → Res β) (l : List α) (bs : List β) :
    mapList f l = ok bs ↔ List.Forall₂ (fun a b => f a = ok b) l bs := by
  induction l generalizing bs with
  | nil =>
    simp only [mapList]
    constructor
    · intro h; cases h; exact .nil
    · intro h; cases h; rfl
  | cons a l ih =>
    simp only [mapList, bind_ok_iff]
    constructor
    · rintro ⟨b, hb, bs', hbs, h⟩
      cases h
      exact .cons hb ((ih _).1 hbs)
    · intro h
      cases h with
      | cons h1 h2 => exact ⟨_, h1, _, (ih _).2 h2, rfl⟩

theorem mapList_ok_length {α β} {f : α → Res β} {l : List α} {bs : List β}
    (h : mapList f l = ok bs) : bs.length = l.length := by
  induction l generalizing bs with
  | nil => simp only [mapList] at h; cases h; rfl
  | cons a l ih =>
    simp only [mapList, bind_ok_iff] at h
    obtain ⟨b, _, bs', h2, h3⟩ := h
    cases h3
    simp [ih h2]

theorem mapList_ok_of_forall {α β} {f : α → Res β} {g : α → β} {l : List α}
    (h : ∀ a ∈ l, f a = ok (g a)) : mapList f l = ok (l.map g) := by
  induction l with
  | nil => rfl
  | cons a l ih =>
    have h1 := h a (by simp)
    have h2 := ih (fun b hb => h b (by simp [hb]))
    simp [mapList, h1, h2]

end Res
end RCT

namespace RCT.Res

/-- Loop with an accumulator, stopping at the first non-`ok` outcome. -/
def foldList {α σ} (f : σ → α → Res σ) : σ → List α → Res σ
  | s, [] => ok s
  | s, a :: l => (f s a).bind fun s' => foldList f s' l

@[simp] theorem foldList_nil {α σ} (f : σ → α → Res σ) (s : σ) : foldList f s [] = ok s := rfl
@[simp] theorem foldList_cons {α σ} (f : σ → α → Res σ) (s : σ) (a : α) (l : List α) :
    foldList f s (a :: l) = (f s a).bind fun s' => foldList f s' l := rfl

theorem bind_assoc {α β γ} (x : Res α) (f : α → Res β) (g : β → Res γ) :
    (x.bind f).bind g = x.bind fun a => (f a).bind g := by cases x <;> rfl

theorem foldList_append {α σ} (f : σ → α → Res σ) (s : σ) (l₁ l₂ : List α) :
    foldList f s (l₁ ++ l₂) = (foldList f s l₁).bind fun s' => foldList f s' l₂ := by
  induction l₁ generalizing s with
  | nil => rfl
  | cons a l ih => simp [bind_assoc, ih]

/-- A loop whose steps all succeed on the states they reach is an ordinary fold. -/
theorem foldList_ok {α σ} {f : σ → α → Res σ} {g : σ → α → σ} {s : σ} {l : List α}
    (h : ∀ s, ∀ a ∈ l, f s a = ok (g s a)) : foldList f s l = ok (l.foldl g s) := by
  induction l generalizing s with
  | nil => rfl
  | cons a l ih =>
    rw [foldList_cons, h s a (by simp), List.foldl_cons]
    exact ih fun s b hb => h s b (by simp [hb])

end RCT.Res
