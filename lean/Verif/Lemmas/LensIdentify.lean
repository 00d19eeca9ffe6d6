import Verif.Lemmas.LensMatch

/-!
Two lenses that see a large target at the same pixels.
-/

namespace RCT
open Spec

/-- What two lenses see on a grid of fifteen by fifteen points, they see everywhere. -/
theorem grid_fifteen {k1 k2 p1 p2 k3 f g cx cy l1 l2 q1 q2 l3 F G CX CY : ℝ} {X Y Z U V W : V3} {as bs : Finset ℝ} (ha : 14 < as.card) (hb : 14 < bs.card)
    (h : ∀ a ∈ as, ∀ b ∈ bs,
      (f * lensX k1 k2 p1 p2 k3 (X.dot ⟨a, b, 1⟩) (Y.dot ⟨a, b, 1⟩) (Z.dot ⟨a, b, 1⟩) + cx * Z.dot ⟨a, b, 1⟩ ^ 7) * W.dot ⟨a, b, 1⟩ ^ 7 =
        (F * lensX l1 l2 q1 q2 l3 (U.dot ⟨a, b, 1⟩) (V.dot ⟨a, b, 1⟩) (W.dot ⟨a, b, 1⟩) + CX * W.dot ⟨a, b, 1⟩ ^ 7) * Z.dot ⟨a, b, 1⟩ ^ 7 ∧
      (g * lensY k1 k2 p1 p2 k3 (X.dot ⟨a, b, 1⟩) (Y.dot ⟨a, b, 1⟩) (Z.dot ⟨a, b, 1⟩) + cy * Z.dot ⟨a, b, 1⟩ ^ 7) * W.dot ⟨a, b, 1⟩ ^ 7 =
        (G * lensY l1 l2 q1 q2 l3 (U.dot ⟨a, b, 1⟩) (V.dot ⟨a, b, 1⟩) (W.dot ⟨a, b, 1⟩) + CY * W.dot ⟨a, b, 1⟩ ^ 7) * Z.dot ⟨a, b, 1⟩ ^ 7) (v : V3) :
    (f * lensX k1 k2 p1 p2 k3 (X.dot v) (Y.dot v) (Z.dot v) + cx * Z.dot v ^ 7) * W.dot v ^ 7 =
      (F * lensX l1 l2 q1 q2 l3 (U.dot v) (V.dot v) (W.dot v) + CX * W.dot v ^ 7) * Z.dot v ^ 7 ∧
    (g * lensY k1 k2 p1 p2 k3 (X.dot v) (Y.dot v) (Z.dot v) + cy * Z.dot v ^ 7) * W.dot v ^ 7 =
      (G * lensY l1 l2 q1 q2 l3 (U.dot v) (V.dot v) (W.dot v) + CY * W.dot v ^ 7) * Z.dot v ^ 7 := by
  constructor
  · refine sub_eq_zero.1 (hom_zero (n := 14) (H := fun v => (f * lensX k1 k2 p1 p2 k3 (X.dot v) (Y.dot v) (Z.dot v) + cx * Z.dot v ^ 7) *
      W.dot v ^ 7 - (F * lensX l1 l2 q1 q2 l3 (U.dot v) (V.dot v) (W.dot v) + CX * W.dot v ^ 7) * Z.dot v ^ 7) ?_ ?_ ?_ v)
    · intro a b
      have hX := dot_cont X a b; have hY := dot_cont Y a b; have hZ := dot_cont Z a b
      have hU := dot_cont U a b; have hV := dot_cont V a b; have hW := dot_cont W a b
      simp only [lensX]
      fun_prop
    · intro c v
      simp only [dot_smul', (lens_hom _ _ _ _ _ _ _ _ _).1]; ring
    · refine grid_zero (n := 14) ?_ ?_ ha hb fun a ha' b hb' => sub_eq_zero.2 (h a ha' b hb').1
      · intro b
        exact (((((dot_a X b).lens (dot_a Y b) (dot_a Z b) k1 k2 p1 p2 k3).1.smul f).add (((dot_a Z b).pow 7).smul cx)).mul ((dot_a W b).pow 7)).sub
          (((((dot_a U b).lens (dot_a V b) (dot_a W b) l1 l2 q1 q2 l3).1.smul F).add (((dot_a W b).pow 7).smul CX)).mul ((dot_a Z b).pow 7))
      · intro a
        exact (((((dot_b X a).lens (dot_b Y a) (dot_b Z a) k1 k2 p1 p2 k3).1.smul f).add (((dot_b Z a).pow 7).smul cx)).mul ((dot_b W a).pow 7)).sub
          (((((dot_b U a).lens (dot_b V a) (dot_b W a) l1 l2 q1 q2 l3).1.smul F).add (((dot_b W a).pow 7).smul CX)).mul ((dot_b Z a).pow 7))
  · refine sub_eq_zero.1 (hom_zero (n := 14) (H := fun v => (g * lensY k1 k2 p1 p2 k3 (X.dot v) (Y.dot v) (Z.dot v) + cy * Z.dot v ^ 7) *
      W.dot v ^ 7 - (G * lensY l1 l2 q1 q2 l3 (U.dot v) (V.dot v) (W.dot v) + CY * W.dot v ^ 7) * Z.dot v ^ 7) ?_ ?_ ?_ v)
    · intro a b
      have hX := dot_cont X a b; have hY := dot_cont Y a b; have hZ := dot_cont Z a b
      have hU := dot_cont U a b; have hV := dot_cont V a b; have hW := dot_cont W a b
      simp only [lensY]
      fun_prop
    · intro c v
      simp only [dot_smul', (lens_hom _ _ _ _ _ _ _ _ _).2]; ring
    · refine grid_zero (n := 14) ?_ ?_ ha hb fun a ha' b hb' => sub_eq_zero.2 (h a ha' b hb').2
      · intro b
        exact (((((dot_a X b).lens (dot_a Y b) (dot_a Z b) k1 k2 p1 p2 k3).2.smul g).add (((dot_a Z b).pow 7).smul cy)).mul ((dot_a W b).pow 7)).sub
          (((((dot_a U b).lens (dot_a V b) (dot_a W b) l1 l2 q1 q2 l3).2.smul G).add (((dot_a W b).pow 7).smul CY)).mul ((dot_a Z b).pow 7))
      · intro a
        exact (((((dot_b X a).lens (dot_b Y a) (dot_b Z a) k1 k2 p1 p2 k3).2.smul g).add (((dot_b Z a).pow 7).smul cy)).mul ((dot_b W a).pow 7)).sub
          (((((dot_b U a).lens (dot_b V a) (dot_b W a) l1 l2 q1 q2 l3).2.smul G).add (((dot_b W a).pow 7).smul CY)).mul ((dot_b Z a).pow 7))

/-- Three independent linear forms are the coordinates for a basis. -/
theorem dual_basis {X Y Z : V3} (h : X.dot (Y.cross Z) ≠ 0) : ∃ e1 e2 e3 : V3,
    (∀ x y z, X.dot (V3.smul x e1 + V3.smul y e2 + V3.smul z e3) = x ∧ Y.dot (V3.smul x e1 + V3.smul y e2 + V3.smul z e3) = y ∧
      Z.dot (V3.smul x e1 + V3.smul y e2 + V3.smul z e3) = z) ∧
    ∀ F v : V3, F.dot v = F.dot e1 * X.dot v + F.dot e2 * Y.dot v + F.dot e3 * Z.dot v := by
  obtain ⟨D, hD⟩ : ∃ D, D = X.dot (Y.cross Z) := ⟨_, rfl⟩
  rw [← hD] at h
  refine ⟨V3.smul (1 / D) (Y.cross Z), V3.smul (1 / D) (Z.cross X), V3.smul (1 / D) (X.cross Y), ?_, ?_⟩
  · simp only [V3.dot, V3.cross, V3.smul, V3.add_x, V3.add_y, V3.add_z] at hD ⊢
    intro x y z
    refine ⟨?_, ?_, ?_⟩ <;> field_simp <;> rw [hD] <;> ring
  · simp only [V3.dot, V3.cross, V3.smul] at hD ⊢
    intro F v
    field_simp
    rw [hD]; ring

theorem forms_det {T : Iso} (hT : T.IsRigid) : (formX T).dot ((formY T).cross (formZ T)) = -T.inv.t.z := by
  have h := M3.IsRot.adj_eq hT
  have h0 := congrArg M3.m20 h; have h1 := congrArg M3.m21 h; have h2 := congrArg M3.m22 h
  simp only [M3.adj, M3.tr] at h0 h1 h2
  simp only [formX, formY, formZ, V3.dot, V3.cross, Iso.inv, M3.mulVec, M3.tr, V3.neg_z]
  linear_combination T.t.x * h0 + T.t.y * h1 + T.t.z * h2

/-- A power of a linear form cancels. -/
theorem cancel_form {Z : V3} (hZ : Z ≠ 0) {N L : V3 → ℝ} {n : ℕ} (hN : ∀ v e, Continuous fun t : ℝ => N (v + V3.smul t e))
    (hL : ∀ v e, Continuous fun t : ℝ => L (v + V3.smul t e)) (h : ∀ v, N v * Z.dot v ^ n = L v * Z.dot v ^ n) (v : V3) : N v = L v := by
  have hn : Z.dot Z ≠ 0 := fun h0 => hZ (V3.normSq_eq_zero.1 h0)
  have hne : ∀ v, Z.dot v ≠ 0 → N v - L v = 0 := fun v hv => sub_eq_zero.2 (mul_right_cancel₀ (pow_ne_zero n hv) (h v))
  by_cases hv0 : Z.dot v = 0
  · have := at_zero (h := fun t => N (v + V3.smul t Z) - L (v + V3.smul t Z)) ((hN v Z).sub (hL v Z))
      (fun t ht => hne _ (by rw [dot_line, hv0, zero_add]; exact mul_ne_zero ht hn))
    have e0 : v + V3.smul 0 Z = v := by ext <;> simp [V3.smul]
    simp only [e0] at this
    exact sub_eq_zero.1 this
  · exact sub_eq_zero.1 (hne v hv0)

theorem lens_cont (k1 k2 p1 p2 k3 f c : ℝ) (X Y Z v e : V3) :
    (Continuous fun t : ℝ => f * lensX k1 k2 p1 p2 k3 (X.dot (v + V3.smul t e)) (Y.dot (v + V3.smul t e)) (Z.dot (v + V3.smul t e)) +
      c * Z.dot (v + V3.smul t e) ^ 7) ∧
    Continuous fun t : ℝ => f * lensY k1 k2 p1 p2 k3 (X.dot (v + V3.smul t e)) (Y.dot (v + V3.smul t e)) (Z.dot (v + V3.smul t e)) +
      c * Z.dot (v + V3.smul t e) ^ 7 := by
  simp only [dot_line, lensX, lensY]
  constructor <;> fun_prop

/-- A camera with radial distortion and another camera that see a grid of fifteen by fifteen points of the target at the same pixels. -/
theorem lens_identify {i i' : Intr} {k1 k2 p1 p2 k3 k1' k2' p1' p2' k3' : ℝ} {T T' : Iso} (hT : T.IsRigid) (hT' : T'.IsRigid)
    (hx : i.fx ≠ 0) (hy : i.fy ≠ 0) (hk : k3 ≠ 0 ∨ k2 ≠ 0 ∨ k1 ≠ 0 ∧ p1 = 0 ∧ p2 = 0)
    (hc : T.inv.t.z ≠ 0) {as bs : Finset ℝ} (ha : 15 ≤ as.card) (hb : 15 ≤ bs.card)
    (h : ∀ a ∈ as, ∀ b ∈ bs, (T.apply ⟨a, b, 0⟩).z ≠ 0 ∧ (T'.apply ⟨a, b, 0⟩).z ≠ 0 ∧
      brown i' k1' k2' p1' p2' k3' ((T'.apply ⟨a, b, 0⟩).x / (T'.apply ⟨a, b, 0⟩).z) ((T'.apply ⟨a, b, 0⟩).y / (T'.apply ⟨a, b, 0⟩).z) =
      brown i k1 k2 p1 p2 k3 ((T.apply ⟨a, b, 0⟩).x / (T.apply ⟨a, b, 0⟩).z) ((T.apply ⟨a, b, 0⟩).y / (T.apply ⟨a, b, 0⟩).z)) :
    ∃ α β w : ℝ, w ≠ 0 ∧ α ≠ 0 ∧ α ^ 2 = β ^ 2 ∧ i.fx = i'.fx * α ∧ i.fy = i'.fy * β ∧ i.cx = i'.cx ∧ i.cy = i'.cy ∧
      k1 = k1' * α ^ 2 ∧ k2 = k2' * α ^ 4 ∧ k3 = k3' * α ^ 6 ∧ p1 = β * p1' ∧ p2 = α * p2' ∧
      V3.smul w (formX T') = V3.smul α (formX T) ∧ V3.smul w (formY T') = V3.smul β (formY T) ∧ V3.smul w (formZ T') = formZ T := by
  have hgrid := grid_fifteen (k1 := k1') (k2 := k2') (p1 := p1') (p2 := p2') (k3 := k3') (f := i'.fx) (g := i'.fy) (cx := i'.cx) (cy := i'.cy)
    (X := formX T') (Y := formY T') (Z := formZ T') (l1 := k1) (l2 := k2) (q1 := p1) (q2 := p2) (l3 := k3) (F := i.fx) (G := i.fy)
    (CX := i.cx) (CY := i.cy) (U := formX T) (V := formY T) (W := formZ T) (as := as) (bs := bs) (by omega) (by omega) (by
      intro a ha' b hb'
      obtain ⟨z1, z2, e⟩ := h a ha' b hb'
      rw [form_apply] at z1
      rw [form_apply T'] at z2 e
      rw [form_apply T] at e
      simp only at z1 z2 e
      obtain ⟨l1, l2⟩ := brown_lens i' k1' k2' p1' p2' k3' (x := (formX T').dot ⟨a, b, 1⟩) (y := (formY T').dot ⟨a, b, 1⟩) z2
      obtain ⟨m1, m2⟩ := brown_lens i k1 k2 p1 p2 k3 (x := (formX T).dot ⟨a, b, 1⟩) (y := (formY T).dot ⟨a, b, 1⟩) z1
      rw [e] at l1 l2
      rw [← l1, ← l2, ← m1, ← m2]
      constructor <;> ring)
  obtain ⟨a0, ha0⟩ := Finset.card_pos.1 (by omega : 0 < as.card)
  obtain ⟨b0, hb0⟩ := Finset.card_pos.1 (by omega : 0 < bs.card)
  have hZ : formZ T' ≠ 0 := by
    intro h0
    have := (h a0 ha0 b0 hb0).2.1
    rw [form_apply, h0] at this
    simp [V3.dot] at this
  have hW : formZ T ≠ 0 := by
    intro h0
    have := (h a0 ha0 b0 hb0).1
    rw [form_apply, h0] at this
    simp [V3.dot] at this
  obtain ⟨e1, e2, e3, hbase, hdual⟩ := dual_basis (X := formX T) (Y := formY T) (Z := formZ T) (by rw [forms_det hT]; exact neg_ne_zero.2 hc)
  have pc : ∀ c : ℝ, ∀ v e : V3, Continuous fun t : ℝ => c * (formZ T).dot (v + V3.smul t e) ^ 7 := fun c v e => by
    simp only [dot_line]; fun_prop
  have hf : i'.fx ≠ 0 := by
    intro h0
    have hv := cancel_form hZ (n := 7) (N := fun v => i'.cx * (formZ T).dot v ^ 7)
      (L := fun v => i.fx * lensX k1 k2 p1 p2 k3 ((formX T).dot v) ((formY T).dot v) ((formZ T).dot v) + i.cx * (formZ T).dot v ^ 7)
      (pc _) (fun v e => (lens_cont _ _ _ _ _ _ _ _ _ _ _ _).1) fun v => by
        have := (hgrid v).1
        rw [h0] at this
        linear_combination this
    refine hx (lensX_not_const (k1 := k1) (k2 := k2) (p1 := p1) (p2 := p2) (k3 := k3) (c := i.cx - i'.cx) fun t => ?_)
    have := hv (V3.smul 1 e1 + V3.smul 0 e2 + V3.smul t e3)
    obtain ⟨b1, b2, b3⟩ := hbase 1 0 t
    simp only [b1, b2, b3] at this
    linear_combination (-1) * this
  have hg : i'.fy ≠ 0 := by
    intro h0
    have hv := cancel_form hZ (n := 7) (N := fun v => i'.cy * (formZ T).dot v ^ 7)
      (L := fun v => i.fy * lensY k1 k2 p1 p2 k3 ((formX T).dot v) ((formY T).dot v) ((formZ T).dot v) + i.cy * (formZ T).dot v ^ 7)
      (pc _) (fun v e => (lens_cont _ _ _ _ _ _ _ _ _ _ _ _).2) fun v => by
        have := (hgrid v).2
        rw [h0] at this
        linear_combination this
    refine hy (lensY_not_const (k1 := k1) (k2 := k2) (p1 := p1) (p2 := p2) (k3 := k3) (c := i.cy - i'.cy) fun t => ?_)
    have := hv (V3.smul 0 e1 + V3.smul 1 e2 + V3.smul t e3)
    obtain ⟨b1, b2, b3⟩ := hbase 0 1 t
    simp only [b1, b2, b3] at this
    linear_combination (-1) * this
  have hn : (formZ T').dot (formZ T') ≠ 0 := fun h0 => hZ (V3.normSq_eq_zero.1 h0)
  have lc : ∀ F v e : V3, Continuous fun t : ℝ => F.dot (v + V3.smul t e) := fun F v e => by
    simp only [dot_line]; fun_prop
  rcases form_dichotomy hT' hZ (formZ T) with ⟨v0, z0, g0, w0⟩ | ⟨w, hw⟩
  · exfalso
    have at0 : ∀ F : V3, F.dot (v0 + V3.smul 0 (formZ T')) = F.dot v0 := fun F => by rw [dot_line]; ring
    obtain ⟨rfl, rfl, rfl, rfl, rfl⟩ := peel (k1 := k1') (k2 := k2') (p1 := p1') (p2 := p2') (k3 := k3') (f := i'.fx) (g := i'.fy) (cx := i'.cx) (cy := i'.cy)
      (ζ := (formZ T').dot (formZ T'))
      (x := fun t => (formX T').dot (v0 + V3.smul t (formZ T'))) (y := fun t => (formY T').dot (v0 + V3.smul t (formZ T')))
      (z := fun t => (formZ T').dot (v0 + V3.smul t (formZ T'))) (c := fun t => (formZ T).dot (v0 + V3.smul t (formZ T')) ^ 7)
      (P := fun t => (i.fx * lensX k1 k2 p1 p2 k3 ((formX T).dot (v0 + V3.smul t (formZ T'))) ((formY T).dot (v0 + V3.smul t (formZ T')))
        ((formZ T).dot (v0 + V3.smul t (formZ T'))) + i.cx * (formZ T).dot (v0 + V3.smul t (formZ T')) ^ 7) * (formZ T').dot (formZ T') ^ 7 * t)
      (Q := fun t => (i.fy * lensY k1 k2 p1 p2 k3 ((formX T).dot (v0 + V3.smul t (formZ T'))) ((formY T).dot (v0 + V3.smul t (formZ T')))
        ((formZ T).dot (v0 + V3.smul t (formZ T'))) + i.cy * (formZ T).dot (v0 + V3.smul t (formZ T')) ^ 7) * (formZ T').dot (formZ T') ^ 7 * t)
      (lc _ _ _) (lc _ _ _) ((lc _ _ _).pow 7)
      (((lens_cont _ _ _ _ _ _ _ _ _ _ _ _).1.mul continuous_const).mul continuous_id)
      (((lens_cont _ _ _ _ _ _ _ _ _ _ _ _).2.mul continuous_const).mul continuous_id)
      (fun t => by rw [dot_line, z0]; ring) hn (by simp only [at0]; exact g0) (by simp only [at0]; exact pow_ne_zero _ w0) hf hg
      (fun t => by
        have := (hgrid (v0 + V3.smul t (formZ T'))).1
        rw [this, dot_line (formZ T'), z0]; ring)
      (fun t => by
        have := (hgrid (v0 + V3.smul t (formZ T'))).2
        rw [this, dot_line (formZ T'), z0]; ring)
    have hv := cancel_form hZ (n := 6) (N := fun v => (i'.fx * (formX T').dot v + i'.cx * (formZ T').dot v) * (formZ T).dot v ^ 7)
      (L := fun v => (i.fx * lensX k1 k2 p1 p2 k3 ((formX T).dot v) ((formY T).dot v) ((formZ T).dot v) + i.cx * (formZ T).dot v ^ 7) * (formZ T').dot v)
      (fun v e => by simp only [dot_line]; fun_prop) (fun v e => (lens_cont _ _ _ _ _ _ _ _ _ _ _ _).1.mul (lc _ _ _)) (fun v => by
        have := (hgrid v).1
        have e : lensX 0 0 0 0 0 ((formX T').dot v) ((formY T').dot v) ((formZ T').dot v) = (formX T').dot v * (formZ T').dot v ^ 6 := by
          simp only [lensX]; ring
        rw [e] at this
        linear_combination this) v0
    have hv' := cancel_form hZ (n := 6) (N := fun v => (i'.fy * (formY T').dot v + i'.cy * (formZ T').dot v) * (formZ T).dot v ^ 7)
      (L := fun v => (i.fy * lensY k1 k2 p1 p2 k3 ((formX T).dot v) ((formY T).dot v) ((formZ T).dot v) + i.cy * (formZ T).dot v ^ 7) * (formZ T').dot v)
      (fun v e => by simp only [dot_line]; fun_prop) (fun v e => (lens_cont _ _ _ _ _ _ _ _ _ _ _ _).2.mul (lc _ _ _)) (fun v => by
        have := (hgrid v).2
        have e : lensY 0 0 0 0 0 ((formX T').dot v) ((formY T').dot v) ((formZ T').dot v) = (formY T').dot v * (formZ T').dot v ^ 6 := by
          simp only [lensY]; ring
        rw [e] at this
        linear_combination this) v0
    simp only [z0, mul_zero, add_zero, mul_eq_zero, hf, hg, pow_eq_zero_iff, w0, or_false, false_or, ne_eq, OfNat.ofNat_ne_zero, not_false_eq_true] at hv hv'
    rcases g0 with g0 | g0
    · exact g0 hv
    · exact g0 hv'
  · have hw0 : w ≠ 0 := by
      rintro rfl
      apply hW
      rw [hw]
      ext <;> simp [V3.smul]
    have wd : ∀ v, (formZ T).dot v = w * (formZ T').dot v := by
      intro v
      conv_lhs => rw [hw]
      simp only [V3.dot, V3.smul]; ring
    have c1 := cancel_form hZ (n := 7) (N := fun v => (i'.fx * lensX k1' k2' p1' p2' k3' ((formX T').dot v) ((formY T').dot v) ((formZ T').dot v) +
        i'.cx * (formZ T').dot v ^ 7) * w ^ 7)
      (L := fun v => i.fx * lensX k1 k2 p1 p2 k3 ((formX T).dot v) ((formY T).dot v) ((formZ T).dot v) + i.cx * (formZ T).dot v ^ 7)
      (fun v e => (lens_cont _ _ _ _ _ _ _ _ _ _ _ _).1.mul continuous_const) (fun v e => (lens_cont _ _ _ _ _ _ _ _ _ _ _ _).1) (fun v => by
        rw [← (hgrid v).1]
        have : (formZ T).dot v ^ 7 = w ^ 7 * (formZ T').dot v ^ 7 := by rw [wd, mul_pow]
        rw [this]; ring)
    have c2 := cancel_form hZ (n := 7) (N := fun v => (i'.fy * lensY k1' k2' p1' p2' k3' ((formX T').dot v) ((formY T').dot v) ((formZ T').dot v) +
        i'.cy * (formZ T').dot v ^ 7) * w ^ 7)
      (L := fun v => i.fy * lensY k1 k2 p1 p2 k3 ((formX T).dot v) ((formY T).dot v) ((formZ T).dot v) + i.cy * (formZ T).dot v ^ 7)
      (fun v e => (lens_cont _ _ _ _ _ _ _ _ _ _ _ _).2.mul continuous_const) (fun v e => (lens_cont _ _ _ _ _ _ _ _ _ _ _ _).2) (fun v => by
        rw [← (hgrid v).2]
        have : (formZ T).dot v ^ 7 = w ^ 7 * (formZ T').dot v ^ 7 := by rw [wd, mul_pow]
        rw [this]; ring)
    obtain ⟨r12, r21, rb1, rb2, r1, r2, r3, r4, r5, r6, r7, r8, r9, r10, r11⟩ := lens_match (cx := i.cx) (cy := i.cy) (cx' := i'.cx) (cy' := i'.cy)
      (k1' := k1') (k2' := k2') (p1' := p1') (p2' := p2') (k3' := k3')
      (a11 := w * (formX T').dot e1) (a12 := w * (formX T').dot e2) (b1 := w * (formX T').dot e3)
      (a21 := w * (formY T').dot e1) (a22 := w * (formY T').dot e2) (b2 := w * (formY T').dot e3) hx hy hf hg hk
      (fun x y t => by
        obtain ⟨b1, b2, b3⟩ := hbase x y t
        obtain ⟨v, hv⟩ : ∃ v, v = V3.smul x e1 + V3.smul y e2 + V3.smul t e3 := ⟨_, rfl⟩
        rw [← hv] at b1 b2 b3
        have := c1 v
        have hz := wd v
        have hX := hdual (formX T') v
        have hY := hdual (formY T') v
        simp only [b1, b2, b3] at this hz hX hY
        rw [← this, show w * (formX T').dot e1 * x + w * (formX T').dot e2 * y + w * (formX T').dot e3 * t =
          w * (formX T').dot v by rw [hX]; ring,
          show w * (formY T').dot e1 * x + w * (formY T').dot e2 * y + w * (formY T').dot e3 * t =
          w * (formY T').dot v by rw [hY]; ring]
        rw [hz, (lens_hom _ _ _ _ _ _ _ _ _).1]; ring)
      (fun x y t => by
        obtain ⟨b1, b2, b3⟩ := hbase x y t
        obtain ⟨v, hv⟩ : ∃ v, v = V3.smul x e1 + V3.smul y e2 + V3.smul t e3 := ⟨_, rfl⟩
        rw [← hv] at b1 b2 b3
        have := c2 v
        have hz := wd v
        have hX := hdual (formX T') v
        have hY := hdual (formY T') v
        simp only [b1, b2, b3] at this hz hX hY
        rw [← this, show w * (formX T').dot e1 * x + w * (formX T').dot e2 * y + w * (formX T').dot e3 * t =
          w * (formX T').dot v by rw [hX]; ring,
          show w * (formY T').dot e1 * x + w * (formY T').dot e2 * y + w * (formY T').dot e3 * t =
          w * (formY T').dot v by rw [hY]; ring]
        rw [hz, (lens_hom _ _ _ _ _ _ _ _ _).2]; ring)
    have eqf : ∀ F G : V3, (∀ v, F.dot v = G.dot v) → F = G := by
      intro F G hFG
      have hx := hFG ⟨1, 0, 0⟩; have hy := hFG ⟨0, 1, 0⟩; have hz := hFG ⟨0, 0, 1⟩
      simp [V3.dot] at hx hy hz
      ext <;> assumption
    have sd : ∀ (s : ℝ) (F v : V3), (V3.smul s F).dot v = s * F.dot v := by intro s F v; simp only [V3.dot, V3.smul]; ring
    refine ⟨_, _, w, hw0, r1, r2, r3, r4, r5, r6, r7, r8, r9, r10, r11, ?_, ?_, hw.symm⟩
    · apply eqf; intro v; rw [sd, sd, hdual (formX T') v]; linear_combination (formY T).dot v * r12 + (formZ T).dot v * rb1
    · apply eqf; intro v; rw [sd, sd, hdual (formY T') v]; linear_combination (formX T).dot v * r21 + (formZ T).dot v * rb2

/-- The poses that belong to the two cameras: unless the target is parallel to the image, the scale is one. -/
theorem lens_scale {T T' : Iso} {α β w : ℝ} (hT : T.IsRigid) (hT' : T'.IsRigid) (hab : α ^ 2 = β ^ 2)
    (h1 : V3.smul w (formX T') = V3.smul α (formX T)) (h2 : V3.smul w (formY T') = V3.smul β (formY T)) (h3 : V3.smul w (formZ T') = formZ T) :
    (T.R.m20 ≠ 0 ∨ T.R.m21 ≠ 0 → α ^ 2 = 1) ∧ (α ^ 2 = 1 → w ^ 2 = 1) := by
  obtain ⟨c1, c2, c3, c4, c5, c6⟩ := M3.IsRot.cols hT
  obtain ⟨d1, d2, d3, d4, d5, d6⟩ := M3.IsRot.cols hT'
  have a1 := congrArg V3.x h1; have a2 := congrArg V3.y h1
  have b1 := congrArg V3.x h2; have b2 := congrArg V3.y h2
  have g1 := congrArg V3.x h3; have g2 := congrArg V3.y h3
  simp only [formX, formY, formZ, V3.smul] at a1 a2 b1 b2 g1 g2
  have e1 : w ^ 2 = α ^ 2 * (1 - T.R.m20 ^ 2) + T.R.m20 ^ 2 := by
    linear_combination (-w ^ 2) * d1 + (w * T'.R.m00 + α * T.R.m00) * a1 + (w * T'.R.m10 + β * T.R.m10) * b1 + (w * T'.R.m20 + T.R.m20) * g1 +
      α ^ 2 * c1 - T.R.m10 ^ 2 * hab
  have e2 : w ^ 2 = α ^ 2 * (1 - T.R.m21 ^ 2) + T.R.m21 ^ 2 := by
    linear_combination (-w ^ 2) * d2 + (w * T'.R.m01 + α * T.R.m01) * a2 + (w * T'.R.m11 + β * T.R.m11) * b2 + (w * T'.R.m21 + T.R.m21) * g2 +
      α ^ 2 * c2 - T.R.m11 ^ 2 * hab
  have e3 : (1 - α ^ 2) * (T.R.m20 * T.R.m21) = 0 := by
    linear_combination w ^ 2 * d4 - w * T'.R.m01 * a1 - α * T.R.m00 * a2 - w * T'.R.m11 * b1 - β * T.R.m10 * b2 - w * T'.R.m21 * g1 - T.R.m20 * g2 -
      α ^ 2 * c4 + T.R.m10 * T.R.m11 * hab
  refine ⟨fun ht => ?_, fun h => by rw [e1, h]; ring⟩
  by_contra hne
  have hne' : 1 - α ^ 2 ≠ 0 := fun h => hne (by linarith)
  have f1 : T.R.m20 * T.R.m21 = 0 := (mul_eq_zero.1 e3).resolve_left hne'
  have f2 : T.R.m20 ^ 2 = T.R.m21 ^ 2 := mul_left_cancel₀ hne' (by linear_combination e2 - e1)
  rcases mul_eq_zero.1 f1 with h | h <;> rw [h] at f2
  · exact ht.elim (fun k => k h) fun k => k (by simpa using f2.symm)
  · exact ht.elim (fun k => k (by simpa using f2)) fun k => k h

/-- Poses with the same plane coordinates are equal. -/
theorem forms_pose {T T' : Iso} (hT : T.IsRigid) (hT' : T'.IsRigid) (h1 : formX T' = formX T) (h2 : formY T' = formY T) (h3 : formZ T' = formZ T) :
    T' = T := by
  simp only [formX, formY, formZ, V3.mk.injEq] at h1 h2 h3
  have hR : T'.R = T.R := M3.IsRot.eq_of_two hT' hT (u := ⟨1, 0, 0⟩) (v := ⟨0, 1, 0⟩)
    (fun h => by have := congrArg V3.z h; simp [V3.cross] at this)
    (by ext <;> simp [M3.mulVec, h1, h2, h3]) (by ext <;> simp [M3.mulVec, h1, h2, h3])
  have ht : T'.t = T.t := by ext <;> simp [h1, h2, h3]
  cases T; cases T'; simp_all

end RCT
