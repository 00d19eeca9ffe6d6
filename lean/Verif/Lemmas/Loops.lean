import Verif.Model.PnP

/-! # Nested loops that collect residual blocks -/

namespace RCT

theorem Res.idxList_ok_iff {α : Type} {l : List α} {i : Nat} {a : α} : Res.idxList l i = .ok a ↔ l[i]? = some a := by
  unfold Res.idxList; split <;> simp_all

theorem Res.mapList_forall₂ {α β γ : Type} {f : α → Res β} {s : α → γ} {R : γ → β → Prop} {l : List α} {r : List β}
    (h : ∀ a ∈ l, ∀ b, f a = .ok b → R (s a) b) (hr : Res.mapList f l = .ok r) : List.Forall₂ R (l.map s) r := by
  rw [Res.mapList_ok_iff] at hr
  induction hr with
  | nil => exact .nil
  | cons hab _ ih =>
    exact .cons (h _ (by simp) _ hab) (ih fun a ha => h a (by simp [ha]))

theorem Res.flatMapList_forall₂ {α β γ : Type} {f : α → Res (List β)} {s : α → List γ} {R : γ → β → Prop} {l : List α}
    {r : List β} (h : ∀ a ∈ l, ∀ b, f a = .ok b → List.Forall₂ R (s a) b) (hr : Res.flatMapList f l = .ok r) :
    List.Forall₂ R (l.flatMap s) r := by
  unfold Res.flatMapList at hr
  rw [Res.bind_ok_iff] at hr
  obtain ⟨rs, hr, he⟩ := hr
  cases he
  rw [Res.mapList_ok_iff] at hr
  induction hr with
  | nil => exact .nil
  | cons hab _ ih =>
    rw [List.flatMap_cons, List.flatten_cons]
    exact List.rel_append (h _ (by simp) _ hab) (ih fun a ha => h a (by simp [ha]))

theorem Res.mapList_returns {α β : Type} {f : α → Res β} {l : List α} (h : ∀ a ∈ l, ∃ b, f a = .ok b) :
    ∃ r, Res.mapList f l = .ok r := by
  induction l with
  | nil => exact ⟨[], rfl⟩
  | cons a l ih =>
    obtain ⟨b, hb⟩ := h a (by simp)
    obtain ⟨r, hr⟩ := ih fun a ha => h a (by simp [ha])
    exact ⟨b :: r, by rw [Res.mapList_ok_iff] at hr ⊢; exact .cons hb hr⟩

theorem Res.flatMapList_returns {α β : Type} {f : α → Res (List β)} {l : List α} (h : ∀ a ∈ l, ∃ b, f a = .ok b) :
    ∃ r, Res.flatMapList f l = .ok r := by
  obtain ⟨r, hr⟩ := Res.mapList_returns h
  exact ⟨_, by unfold Res.flatMapList; rw [hr]; rfl⟩

theorem Forall₂.mem_right {α β : Type} {R : α → β → Prop} {l : List α} {r : List β} (h : List.Forall₂ R l r) {b : β}
    (hb : b ∈ r) : ∃ a ∈ l, R a b := by
  induction h with
  | nil => cases hb
  | cons hab _ ih =>
    rcases List.mem_cons.1 hb with rfl | hb
    · exact ⟨_, by simp, hab⟩
    · obtain ⟨a, ha, h⟩ := ih hb; exact ⟨a, by simp [ha], h⟩

theorem Forall₂.mem_left {α β : Type} {R : α → β → Prop} {l : List α} {r : List β} (h : List.Forall₂ R l r) {a : α}
    (ha : a ∈ l) : ∃ b ∈ r, R a b := by
  induction h with
  | nil => cases ha
  | cons hab _ ih =>
    rcases List.mem_cons.1 ha with rfl | ha
    · exact ⟨_, by simp, hab⟩
    · obtain ⟨a, ha, h⟩ := ih ha; exact ⟨a, by simp [ha], h⟩

theorem Forall₂.imp_mem {α β : Type} {R S : α → β → Prop} {l : List α} {r : List β} (h : List.Forall₂ R l r)
    (hi : ∀ a ∈ l, ∀ b, R a b → S a b) : List.Forall₂ S l r := by
  induction h with
  | nil => exact .nil
  | cons hab _ ih => exact .cons (hi _ (by simp) _ hab) (ih fun a ha => hi a (by simp [ha]))

/-- Residuals of a problem whose blocks correspond to features. -/
theorem residuals_forall₂ {α β : Type} {l : List α} {pb : List (ResBlock β)} {st : Nat → β} {e : α → List ℝ}
    (h : List.Forall₂ (fun a b => b.residual st = e a) l pb) : residuals pb st = l.flatMap e := by
  induction h with
  | nil => rfl
  | cons hab _ ih =>
    rw [List.flatMap_cons, ← ih, ← hab]; rfl

end RCT
