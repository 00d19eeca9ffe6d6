import Verif.Lemmas.Identify
import Verif.Lemmas.Pose
import Verif.Spec.IdentifyIntrinsic

/-!
# Plane targets and the shape of a camera
-/

namespace RCT
open Spec

/-- Every rigid motion has a 6-value pose (of an angle between a full and two full turns, if need be). -/
theorem exists_pose6 {T : Iso} (h : T.IsRigid) : ∃ p : Pose6, poseCalToEigen p = T := by
  obtain ⟨h1, h2, h3⟩ := M3.IsRot.toAngleAxis h
  obtain ⟨u, hu⟩ : ∃ u, u = T.R.toAngleAxis.axis := ⟨_, rfl⟩
  obtain ⟨th, hth⟩ : ∃ th, th = T.R.toAngleAxis.angle + 2 * Real.pi := ⟨_, rfl⟩
  rw [← hu] at h1
  have hpos : 6 < th := by have := Real.pi_gt_three; linarith
  let p : Pose6 := ⟨th * u.x, th * u.y, th * u.z, T.t.x, T.t.y, T.t.z⟩
  have hrot : p.rot = V3.smul th u := rfl
  have hn : p.rot.normSq = th * th := by
    rw [hrot]; simp only [V3.normSq, V3.dot, V3.smul] at h1 ⊢; linear_combination (th * th) * h1
  have hnorm : p.rot.norm = th := by
    unfold V3.norm
    rw [hn]; exact Real.sqrt_mul_self (by linarith)
  have hbig : p.rot.normSq > dblEps := by
    rw [hn]
    have : dblEps < 1 := by unfold dblEps; norm_num
    nlinarith
  refine ⟨p, ?_⟩
  rw [poseCalToEigen_big hbig]
  have hnormed : p.rot.normalized = u := by
    have : p.rot.normSq > 0 := by rw [hn]; nlinarith
    have h0 : th ≠ 0 := by linarith
    unfold V3.normalized
    rw [if_pos this, hnorm, hrot]
    ext <;> simp [V3.smul, h0]
  rw [hnorm, hnormed]
  have hmat : AngleAxis.toMat ⟨th, u⟩ = T.R := by
    rw [← h3, hu]
    unfold AngleAxis.toMat
    simp only [hth, Real.cos_add_two_pi, Real.sin_add_two_pi]
  rw [hmat]
  rfl

theorem v3_zero_of_dots {x a b c : V3} (h : a.triple b c ≠ 0) (h1 : x.dot a = 0) (h2 : x.dot b = 0) (h3 : x.dot c = 0) : x = 0 := by
  simp only [V3.dot, V3.triple, V3.cross] at h h1 h2 h3
  have h : a.x * (b.y * c.z - b.z * c.y) + a.y * (b.z * c.x - b.x * c.z) + a.z * (b.x * c.y - b.y * c.x) ≠ 0 := by
    intro h0; apply h; linear_combination h0
  have e : ∀ t : ℝ, t * (a.x * (b.y * c.z - b.z * c.y) + a.y * (b.z * c.x - b.x * c.z) + a.z * (b.x * c.y - b.y * c.x)) = 0 → t = 0 :=
    fun t ht => (mul_eq_zero.1 ht).resolve_right h
  ext
  · apply e; show _ = (0 : ℝ); linear_combination (b.y * c.z - b.z * c.y) * h1 + (c.y * a.z - c.z * a.y) * h2 + (a.y * b.z - a.z * b.y) * h3
  · apply e; show _ = (0 : ℝ); linear_combination (b.z * c.x - b.x * c.z) * h1 + (c.z * a.x - c.x * a.z) * h2 + (a.z * b.x - a.x * b.z) * h3
  · apply e; show _ = (0 : ℝ); linear_combination (b.x * c.y - b.y * c.x) * h1 + (c.x * a.y - c.y * a.x) * h2 + (a.x * b.y - a.y * b.x) * h3

/-- Two maps of a plane that agree up to scale in four points, no three on one line, agree up to one scale. -/
theorem plane_maps {u0 u1 u2 w0 w1 w2 : V3} (hw : w1.triple w2 w0 ≠ 0) {a b c d : V3} (hq : Quadrangle a b c d) {ka kb kc kd : ℝ}
    (ha : u0 + V3.smul a.x u1 + V3.smul a.y u2 = V3.smul ka (w0 + V3.smul a.x w1 + V3.smul a.y w2))
    (hb : u0 + V3.smul b.x u1 + V3.smul b.y u2 = V3.smul kb (w0 + V3.smul b.x w1 + V3.smul b.y w2))
    (hc : u0 + V3.smul c.x u1 + V3.smul c.y u2 = V3.smul kc (w0 + V3.smul c.x w1 + V3.smul c.y w2))
    (hd : u0 + V3.smul d.x u1 + V3.smul d.y u2 = V3.smul kd (w0 + V3.smul d.x w1 + V3.smul d.y w2)) :
    u0 = V3.smul kd w0 ∧ u1 = V3.smul kd w1 ∧ u2 = V3.smul kd w2 := by
  have z1 := hq.za; have z2 := hq.zb; have z3 := hq.zc; have z4 := hq.zd
  have hA := triangle3_area hq.abc z1 z2 z3
  have hB := triangle3_area hq.abd z1 z2 z4
  have hC := triangle3_area hq.acd z1 z3 z4
  have hD := triangle3_area hq.bcd z2 z3 z4
  have htr : (w0 + V3.smul a.x w1 + V3.smul a.y w2).triple (w0 + V3.smul b.x w1 + V3.smul b.y w2)
      (w0 + V3.smul c.x w1 + V3.smul c.y w2) ≠ 0 := by
    have : (w0 + V3.smul a.x w1 + V3.smul a.y w2).triple (w0 + V3.smul b.x w1 + V3.smul b.y w2)
      (w0 + V3.smul c.x w1 + V3.smul c.y w2) = area2 a b c * w1.triple w2 w0 := by
      simp [V3.triple, V3.cross, V3.dot, V3.smul, area2]
      ring
    rw [this]
    exact mul_ne_zero hA hw
  have ax := congrArg V3.x ha; have ay := congrArg V3.y ha; have az := congrArg V3.z ha
  have bx := congrArg V3.x hb; have by' := congrArg V3.y hb; have bz := congrArg V3.z hb
  have cx := congrArg V3.x hc; have cy := congrArg V3.y hc; have cz := congrArg V3.z hc
  have dx := congrArg V3.x hd; have dy := congrArg V3.y hd; have dz := congrArg V3.z hd
  simp [V3.smul] at ax ay az bx by' bz cx cy cz dx dy dz
  have hlin : V3.smul (area2 b c d * (ka - kd)) (w0 + V3.smul a.x w1 + V3.smul a.y w2) +
      V3.smul (-area2 a c d * (kb - kd)) (w0 + V3.smul b.x w1 + V3.smul b.y w2) +
      V3.smul (area2 a b d * (kc - kd)) (w0 + V3.smul c.x w1 + V3.smul c.y w2) = 0 := by
    ext <;> simp [V3.smul, area2]
    · linear_combination (-((c.x - b.x) * (d.y - b.y) - (c.y - b.y) * (d.x - b.x))) * ax +
        ((c.x - a.x) * (d.y - a.y) - (c.y - a.y) * (d.x - a.x)) * bx -
        ((b.x - a.x) * (d.y - a.y) - (b.y - a.y) * (d.x - a.x)) * cx +
        ((b.x - a.x) * (c.y - a.y) - (b.y - a.y) * (c.x - a.x)) * dx
    · linear_combination (-((c.x - b.x) * (d.y - b.y) - (c.y - b.y) * (d.x - b.x))) * ay +
        ((c.x - a.x) * (d.y - a.y) - (c.y - a.y) * (d.x - a.x)) * by' -
        ((b.x - a.x) * (d.y - a.y) - (b.y - a.y) * (d.x - a.x)) * cy +
        ((b.x - a.x) * (c.y - a.y) - (b.y - a.y) * (c.x - a.x)) * dy
    · linear_combination (-((c.x - b.x) * (d.y - b.y) - (c.y - b.y) * (d.x - b.x))) * az +
        ((c.x - a.x) * (d.y - a.y) - (c.y - a.y) * (d.x - a.x)) * bz -
        ((b.x - a.x) * (d.y - a.y) - (b.y - a.y) * (d.x - a.x)) * cz +
        ((b.x - a.x) * (c.y - a.y) - (b.y - a.y) * (c.x - a.x)) * dz
  obtain ⟨e1, e2, e3⟩ := v3_independent htr hlin
  have f1 : ka = kd := by have := (mul_eq_zero.1 e1).resolve_left hD; linarith
  have f2 : kb = kd := by have := (mul_eq_zero.1 e2).resolve_left (neg_ne_zero.2 hC); linarith
  have f3 : kc = kd := by have := (mul_eq_zero.1 e3).resolve_left hB; linarith
  rw [f1] at ax ay az
  rw [f2] at bx by' bz
  rw [f3] at cx cy cz
  -- the difference vanishes in three points of the plane
  have key : ∀ p0 p1 p2 : ℝ, p0 + a.x * p1 + a.y * p2 = 0 → p0 + b.x * p1 + b.y * p2 = 0 → p0 + c.x * p1 + c.y * p2 = 0 →
      p0 = 0 ∧ p1 = 0 ∧ p2 = 0 := by
    intro p0 p1 p2 h1 h2 h3
    unfold area2 at hA
    have g1 : p1 = 0 := by
      refine (mul_eq_zero.1 (?_ : p1 * _ = 0)).resolve_right hA
      linear_combination (c.y - a.y) * (h2 - h1) - (b.y - a.y) * (h3 - h1)
    have g2 : p2 = 0 := by
      refine (mul_eq_zero.1 (?_ : p2 * _ = 0)).resolve_right hA
      linear_combination (b.x - a.x) * (h3 - h1) - (c.x - a.x) * (h2 - h1)
    rw [g1, g2] at h1
    exact ⟨by linarith, g1, g2⟩
  obtain ⟨x0, x1, x2⟩ := key (u0.x - kd * w0.x) (u1.x - kd * w1.x) (u2.x - kd * w2.x)
    (by linear_combination ax) (by linear_combination bx) (by linear_combination cx)
  obtain ⟨y0, y1, y2⟩ := key (u0.y - kd * w0.y) (u1.y - kd * w1.y) (u2.y - kd * w2.y)
    (by linear_combination ay) (by linear_combination by') (by linear_combination cy)
  obtain ⟨q0, q1, q2⟩ := key (u0.z - kd * w0.z) (u1.z - kd * w1.z) (u2.z - kd * w2.z)
    (by linear_combination az) (by linear_combination bz) (by linear_combination cz)
  refine ⟨?_, ?_, ?_⟩ <;> ext <;> simp [V3.smul] <;> linarith

/-! ### Forms that are multiples of the scalar product on planes -/

/-- The value of the symmetric form with these coefficients (and no mixed term of the first two coordinates). -/
def form5 (q00 q11 q22 q02 q12 : ℝ) (x y : V3) : ℝ :=
  q00 * x.x * y.x + q11 * x.y * y.y + q22 * x.z * y.z + q02 * (x.x * y.z + x.z * y.x) + q12 * (x.y * y.z + x.z * y.y)

/-- The symmetric form of six coefficients. -/
def form6 (q00 q11 q22 q01 q02 q12 : ℝ) (x y : V3) : ℝ :=
  form5 q00 q11 q22 q02 q12 x y + q01 * (x.x * y.y + x.y * y.x)

theorem form6_zero {q00 q11 q22 q01 q02 q12 : ℝ} {a b c : V3} (h : a.triple b c ≠ 0)
    (haa : form6 q00 q11 q22 q01 q02 q12 a a = 0) (hbb : form6 q00 q11 q22 q01 q02 q12 b b = 0)
    (hcc : form6 q00 q11 q22 q01 q02 q12 c c = 0) (hab : form6 q00 q11 q22 q01 q02 q12 a b = 0)
    (hac : form6 q00 q11 q22 q01 q02 q12 a c = 0) (hbc : form6 q00 q11 q22 q01 q02 q12 b c = 0) :
    q00 = 0 ∧ q11 = 0 ∧ q22 = 0 ∧ q01 = 0 ∧ q02 = 0 ∧ q12 = 0 := by
  let F : V3 → V3 := fun x => ⟨q00 * x.x + q01 * x.y + q02 * x.z, q01 * x.x + q11 * x.y + q12 * x.z, q02 * x.x + q12 * x.y + q22 * x.z⟩
  have hF : ∀ x y, (F x).dot y = form6 q00 q11 q22 q01 q02 q12 x y := by
    intro x y; simp only [F, V3.dot, form6, form5]; ring
  have hsymm : ∀ x y, form6 q00 q11 q22 q01 q02 q12 x y = form6 q00 q11 q22 q01 q02 q12 y x := by
    intro x y; simp only [form6, form5]; ring
  have fa : F a = 0 := v3_zero_of_dots h ((hF _ _).trans haa) ((hF _ _).trans hab) ((hF _ _).trans hac)
  have fb : F b = 0 := v3_zero_of_dots h ((hF _ _).trans ((hsymm _ _).trans hab)) ((hF _ _).trans hbb) ((hF _ _).trans hbc)
  have fc : F c = 0 := v3_zero_of_dots h ((hF _ _).trans ((hsymm _ _).trans hac)) ((hF _ _).trans ((hsymm _ _).trans hbc))
    ((hF _ _).trans hcc)
  have hx : ∀ {x}, F x = 0 → (⟨q00, q01, q02⟩ : V3).dot x = 0 := fun h => congrArg V3.x h
  have hy : ∀ {x}, F x = 0 → (⟨q01, q11, q12⟩ : V3).dot x = 0 := fun h => congrArg V3.y h
  have hz : ∀ {x}, F x = 0 → (⟨q02, q12, q22⟩ : V3).dot x = 0 := fun h => congrArg V3.z h
  have r1 := v3_zero_of_dots h (hx fa) (hx fb) (hx fc)
  have r2 := v3_zero_of_dots h (hy fa) (hy fb) (hy fc)
  have r3 := v3_zero_of_dots h (hz fa) (hz fb) (hz fc)
  exact ⟨congrArg V3.x r1, congrArg V3.y r2, congrArg V3.z r3, congrArg V3.y r1, congrArg V3.z r1, congrArg V3.z r2⟩

/-- A form without mixed term that is a multiple of the scalar product on every plane of a list, is a multiple of it
everywhere, unless the planes have few directions. -/
theorem form5_scalar {q00 q11 q22 q02 q12 : ℝ} {ns : List V3} (hn0 : ∀ n ∈ ns, n ≠ 0) (hfew : ¬ FewDirections ns)
    (hplane : ∀ n ∈ ns, ∃ s, ∀ x y : V3, x.dot n = 0 → y.dot n = 0 → form5 q00 q11 q22 q02 q12 x y = s * x.dot y) :
    q11 = q00 ∧ q22 = q00 ∧ q02 = 0 ∧ q12 = 0 := by
  have hez : (⟨0, 0, 1⟩ : V3) ≠ 0 := fun h => by have := congrArg V3.z h; simp at this
  cases ns with
  | nil => exact absurd ⟨⟨0, 0, 1⟩, ⟨0, 0, 1⟩, hez, hez, by simp, by simp⟩ hfew
  | cons n1 rest =>
    by_cases hall : ∀ m ∈ n1 :: rest, m.cross n1 = 0
    · exact absurd ⟨n1, ⟨0, 0, 1⟩, hn0 n1 (by simp), hez, by simp, fun m hm => Or.inl (hall m hm)⟩ hfew
    push Not at hall
    obtain ⟨n2, hn2, hcr⟩ := hall
    obtain ⟨s, hs⟩ := hplane n1 (by simp)
    -- one factor for all planes
    have hsame : ∀ m ∈ n1 :: rest, ∀ x y : V3, x.dot m = 0 → y.dot m = 0 → form5 q00 q11 q22 q02 q12 x y = s * x.dot y := by
      have hdiff : ∀ m ∈ n1 :: rest, m.cross n1 ≠ 0 → ∀ x y : V3, x.dot m = 0 → y.dot m = 0 →
          form5 q00 q11 q22 q02 q12 x y = s * x.dot y := by
        intro m hm hc x y hx hy
        obtain ⟨s', hs'⟩ := hplane m hm
        have e1 := hs (m.cross n1) (m.cross n1) (by simp only [V3.cross, V3.dot]; ring) (by simp only [V3.cross, V3.dot]; ring)
        have e2 := hs' (m.cross n1) (m.cross n1) (by simp only [V3.cross, V3.dot]; ring) (by simp only [V3.cross, V3.dot]; ring)
        have hpos := V3.normSq_pos hc
        have : s = s' := mul_right_cancel₀ (b := (m.cross n1).normSq) hpos.ne' (e1.symm.trans e2)
        rw [this]
        exact hs' x y hx hy
      intro m hm x y hx hy
      by_cases hc : m.cross n1 = 0
      · -- parallel planes
        have hpar : ∀ z : V3, z.dot m = 0 → z.dot n1 = 0 := by
          intro z hz
          have hmpos := V3.normSq_pos (hn0 m hm)
          have cx := congrArg V3.x hc; have cy := congrArg V3.y hc; have cz := congrArg V3.z hc
          simp only [V3.cross, V3.zero_x, V3.zero_y, V3.zero_z] at cx cy cz
          simp only [V3.dot, V3.normSq] at hz hmpos ⊢
          refine (mul_eq_zero.1 (?_ : _ * (m.x * m.x + m.y * m.y + m.z * m.z) = 0)).resolve_right hmpos.ne'
          linear_combination (m.x * n1.x + m.y * n1.y + m.z * n1.z) * hz - (z.y * m.z - z.z * m.y) * cx - (z.z * m.x - z.x * m.z) * cy -
            (z.x * m.y - z.y * m.x) * cz
        exact hs x y (hpar x hx) (hpar y hy)
      · exact hdiff m hm hc x y hx hy
    -- the form minus the multiple of the scalar product is a product of two linear forms
    obtain ⟨w, hw⟩ : ∃ w, w = n1.cross n2 := ⟨_, rfl⟩
    have hw0 : w ≠ 0 := by
      rw [hw]; intro h0; apply hcr
      have cx := congrArg V3.x h0; have cy := congrArg V3.y h0; have cz := congrArg V3.z h0
      simp only [V3.cross, V3.zero_x, V3.zero_y, V3.zero_z] at cx cy cz
      ext <;> simp only [V3.cross, V3.zero_x, V3.zero_y, V3.zero_z] <;> linarith
    have hwpos := V3.normSq_pos hw0
    obtain ⟨W, hW⟩ : ∃ W, W = w.normSq := ⟨_, rfl⟩
    rw [← hW] at hwpos
    obtain ⟨u, hu⟩ : ∃ u, u = n1.cross w := ⟨_, rfl⟩
    obtain ⟨v, hv⟩ : ∃ v, v = n2.cross w := ⟨_, rfl⟩
    have dw1 : w.dot n1 = 0 := by rw [hw]; simp only [V3.cross, V3.dot]; ring
    have dw2 : w.dot n2 = 0 := by rw [hw]; simp only [V3.cross, V3.dot]; ring
    have du1 : u.dot n1 = 0 := by rw [hu]; simp only [V3.cross, V3.dot]; ring
    have du2 : u.dot n2 = -W := by rw [hu, hW, hw]; simp only [V3.cross, V3.dot, V3.normSq]; ring
    have dv1 : v.dot n1 = W := by rw [hv, hW, hw]; simp only [V3.cross, V3.dot, V3.normSq]; ring
    have dv2 : v.dot n2 = 0 := by rw [hv]; simp only [V3.cross, V3.dot]; ring
    have htr : w.triple u v ≠ 0 := by
      have : w.triple u v = W * W := by rw [hu, hv, hW, hw]; simp only [V3.triple, V3.cross, V3.dot, V3.normSq]; ring
      rw [this]; exact mul_ne_zero hwpos.ne' hwpos.ne'
    obtain ⟨κ, hκ⟩ : ∃ κ, κ = (form5 q00 q11 q22 q02 q12 u v - s * u.dot v) / (W * W) := ⟨_, rfl⟩
    have hκ' : form5 q00 q11 q22 q02 q12 u v - s * u.dot v = κ * (W * W) := by rw [hκ]; field_simp
    have hD : ∀ x y, form6 (q00 - s + κ * (2 * n1.x * n2.x)) (q11 - s + κ * (2 * n1.y * n2.y)) (q22 - s + κ * (2 * n1.z * n2.z))
        (κ * (n1.x * n2.y + n1.y * n2.x)) (q02 + κ * (n1.x * n2.z + n1.z * n2.x)) (q12 + κ * (n1.y * n2.z + n1.z * n2.y)) x y =
        form5 q00 q11 q22 q02 q12 x y - s * x.dot y + κ * (x.dot n1 * y.dot n2 + x.dot n2 * y.dot n1) := by
      intro x y
      simp only [form6, form5, V3.dot]; ring
    have hn2' : n2 ∈ n1 :: rest := hn2
    obtain ⟨e1, e2, e3, e4, e5, e6⟩ := form6_zero htr
      (by rw [hD, hs w w dw1 dw1, dw1, dw2]; ring) (by rw [hD, hs u u du1 du1, du1]; ring)
      (by rw [hD, hsame n2 hn2' v v dv2 dv2, dv2]; ring) (by rw [hD, hs w u dw1 du1, dw1, du1]; ring)
      (by rw [hD, hsame n2 hn2' w v dw2 dv2, dw2, dv2]; ring) (by rw [hD, hκ', du1, du2, dv1, dv2]; ring)
    have hκ0 : κ = 0 := by
      by_contra hne
      have hmix : n1.x * n2.y + n1.y * n2.x = 0 := (mul_eq_zero.1 e4).resolve_left hne
      apply hfew
      refine ⟨n1, n2, hn0 n1 (by simp), hn0 n2 hn2', hmix, ?_⟩
      intro m hm
      by_contra hno
      push Not at hno
      obtain ⟨h1, h2⟩ := hno
      have p1 := V3.normSq_pos h1
      have p2 := V3.normSq_pos h2
      have hform : ∀ x y : V3, x.dot m = 0 → y.dot m = 0 → x.dot n1 * y.dot n2 + x.dot n2 * y.dot n1 = 0 := by
        intro x y hx hy
        have := hD x y
        rw [e1, e2, e3, e4, e5, e6, hsame m hm x y hx hy] at this
        have h0 : form6 0 0 0 0 0 0 x y = 0 := by simp [form6, form5]
        rw [h0] at this
        exact (mul_eq_zero.1 (by linarith : κ * _ = 0)).resolve_left hne
      have a1 : ((m.cross n1).cross m).dot m = 0 := by simp only [V3.cross, V3.dot]; ring
      have a2 : ((m.cross n2).cross m).dot m = 0 := by simp only [V3.cross, V3.dot]; ring
      have b1 : ((m.cross n1).cross m).dot n1 = (m.cross n1).normSq := by simp only [V3.cross, V3.dot, V3.normSq]; ring
      have b2 : ((m.cross n2).cross m).dot n2 = (m.cross n2).normSq := by simp only [V3.cross, V3.dot, V3.normSq]; ring
      have c1 := hform _ _ a1 a1
      have c2 := hform _ _ a1 a2
      rw [b1] at c1 c2
      rw [b2] at c2
      have c3 : ((m.cross n1).cross m).dot n2 = 0 :=
        (mul_eq_zero.1 (by linarith : (m.cross n1).normSq * ((m.cross n1).cross m).dot n2 = 0)).resolve_left p1.ne'
      rw [c3, zero_mul, add_zero] at c2
      exact mul_ne_zero p1.ne' p2.ne' c2
    rw [hκ0] at e1 e2 e3 e5 e6
    exact ⟨by linarith, by linarith, by linarith, by linarith⟩

/-! ### Cameras -/

def M3.c0 (R : M3) : V3 := ⟨R.m00, R.m10, R.m20⟩
def M3.c1 (R : M3) : V3 := ⟨R.m01, R.m11, R.m21⟩

/-- The pixel of a point in homogeneous coordinates. -/
def Intr.map (i : Intr) (p : V3) : V3 := ⟨i.fx * p.x + i.cx * p.z, i.fy * p.y + i.cy * p.z, p.z⟩

def shear (a b c d : ℝ) (p : V3) : V3 := ⟨a * p.x + b * p.z, c * p.y + d * p.z, p.z⟩

theorem shear_dot (a b c d : ℝ) (x y : V3) :
    (shear a b c d x).dot (shear a b c d y) = form5 (a * a) (c * c) (b * b + d * d + 1) (a * b) (c * d) x y := by
  simp only [shear, V3.dot, form5]; ring

theorem map_plane (i : Intr) (T : Iso) (p : V3) (hp : p.z = 0) :
    i.map (T.apply p) = i.map T.t + V3.smul p.x (i.map T.R.c0) + V3.smul p.y (i.map T.R.c1) := by
  ext <;> simp [Intr.map, Iso.apply, M3.mulVec, V3.smul, M3.c0, M3.c1, hp] <;> ring

theorem map_of_pinhole {i i' : Intr} {p q : V3} (hp : p.z ≠ 0) (hq : q.z ≠ 0) (h : pinhole i' q = pinhole i p) :
    i'.map q = V3.smul (q.z / p.z) (i.map p) := by
  have hx := congrArg V2.x h; have hy := congrArg V2.y h
  simp only [pinhole] at hx hy
  have hx' : (i'.fx * q.x + i'.cx * q.z) * p.z = (i.fx * p.x + i.cx * p.z) * q.z := by
    field_simp at hx; linear_combination hx
  have hy' : (i'.fy * q.y + i'.cy * q.z) * p.z = (i.fy * p.y + i.cy * p.z) * q.z := by
    field_simp at hy; linear_combination hy
  ext <;> simp only [Intr.map, V3.smul] <;> field_simp
  · linear_combination hx'
  · linear_combination hy'

/-- Two cameras that see a plane target at the same pixels: the poses of the target are related by a shear. -/
theorem view_relation {i i' : Intr} {T T' : Iso} (hT : T.IsRigid) (hx : i.fx ≠ 0) (hy : i.fy ≠ 0)
    (hcam : T.inv.t.z ≠ 0) {a b c d : V3} (hq : Quadrangle a b c d)
    (h : ∀ p ∈ [a, b, c, d], (T.apply p).z ≠ 0 ∧ (T'.apply p).z ≠ 0 ∧ pinhole i' (T'.apply p) = pinhole i (T.apply p)) :
    ∃ k ≠ 0, i'.map T'.t = V3.smul k (i.map T.t) ∧ i'.map T'.R.c0 = V3.smul k (i.map T.R.c0) ∧
      i'.map T'.R.c1 = V3.smul k (i.map T.R.c1) ∧ k = (T'.apply d).z / (T.apply d).z := by
  have htr : (i.map T.R.c0).triple (i.map T.R.c1) (i.map T.t) = -(i.fx * i.fy * T.inv.t.z) := by
    obtain ⟨c1, c2, c3, c4, c5, c6, c7, c8, c9⟩ := M3.IsRot.cof hT
    simp only [V3.triple, V3.cross, V3.dot, Intr.map, M3.c0, M3.c1, Iso.inv, M3.tr, M3.mulVec, V3.neg_z]
    linear_combination (i.fx * i.fy) * (T.t.x * c7 + T.t.y * c8 + T.t.z * c9)
  have key : ∀ p ∈ [a, b, c, d], p.z = 0 → i'.map T'.t + V3.smul p.x (i'.map T'.R.c0) + V3.smul p.y (i'.map T'.R.c1) =
      V3.smul ((T'.apply p).z / (T.apply p).z) (i.map T.t + V3.smul p.x (i.map T.R.c0) + V3.smul p.y (i.map T.R.c1)) := by
    intro p hp hp0
    obtain ⟨h1, h2, h3⟩ := h p hp
    rw [← map_plane i' T' p hp0, ← map_plane i T p hp0]
    exact map_of_pinhole h1 h2 h3
  obtain ⟨e1, e2, e3⟩ := plane_maps (by rw [htr]; exact neg_ne_zero.2 (mul_ne_zero (mul_ne_zero hx hy) hcam)) hq
    (key a (by simp) hq.za) (key b (by simp) hq.zb) (key c (by simp) hq.zc) (key d (by simp) hq.zd)
  obtain ⟨h1, h2, -⟩ := h d (by simp)
  exact ⟨_, div_ne_zero h2 h1, e1, e2, e3, rfl⟩

/-- The second camera is not degenerate. -/
theorem view_focal {i i' : Intr} {T T' : Iso} (hT : T.IsRigid) (hx : i.fx ≠ 0) (hy : i.fy ≠ 0) (hcam : T.inv.t.z ≠ 0) {k : ℝ} (hk : k ≠ 0)
    (h0 : i'.map T'.t = V3.smul k (i.map T.t)) (h1 : i'.map T'.R.c0 = V3.smul k (i.map T.R.c0))
    (h2 : i'.map T'.R.c1 = V3.smul k (i.map T.R.c1)) : i'.fx ≠ 0 ∧ i'.fy ≠ 0 := by
  have htr : ∀ j : Intr, ∀ U : Iso, (j.map U.R.c0).triple (j.map U.R.c1) (j.map U.t) = j.fx * j.fy * (U.R.c0.cross U.R.c1).dot U.t := by
    intro j U
    simp only [V3.triple, V3.cross, V3.dot, Intr.map]
    ring
  have h3 : (T.R.c0.cross T.R.c1).dot T.t = -T.inv.t.z := by
    obtain ⟨c1, c2, c3, c4, c5, c6, c7, c8, c9⟩ := M3.IsRot.cof hT
    simp only [V3.cross, V3.dot, M3.c0, M3.c1, Iso.inv, M3.tr, M3.mulVec, V3.neg_z]
    linear_combination T.t.x * c7 + T.t.y * c8 + T.t.z * c9
  have e := htr i' T'
  rw [h0, h1, h2] at e
  have e2 : (V3.smul k (i.map T.R.c0)).triple (V3.smul k (i.map T.R.c1)) (V3.smul k (i.map T.t)) =
      k * k * k * (i.fx * i.fy * -T.inv.t.z) := by
    rw [← h3, ← htr i T]
    simp only [V3.triple, V3.cross, V3.dot, V3.smul]
    ring
  rw [e2] at e
  have hne : k * k * k * (i.fx * i.fy * -T.inv.t.z) ≠ 0 :=
    mul_ne_zero (mul_ne_zero (mul_ne_zero hk hk) hk) (mul_ne_zero (mul_ne_zero hx hy) (neg_ne_zero.2 hcam))
  constructor
  · intro h; rw [h] at e; apply hne; rw [e]; ring
  · intro h; rw [h] at e; apply hne; rw [e]; ring

theorem shear_of_map {i i' : Intr} (hx : i'.fx ≠ 0) (hy : i'.fy ≠ 0) {k : ℝ} {p q : V3} (h : i'.map q = V3.smul k (i.map p)) :
    q = V3.smul k (shear (i.fx / i'.fx) ((i.cx - i'.cx) / i'.fx) (i.fy / i'.fy) ((i.cy - i'.cy) / i'.fy) p) := by
  have ex := congrArg V3.x h; have ey := congrArg V3.y h; have ez := congrArg V3.z h
  simp only [Intr.map, V3.smul] at ex ey ez
  ext <;> simp only [shear, V3.smul]
  · field_simp; rw [ez] at ex; linear_combination ex
  · field_simp; rw [ez] at ey; linear_combination ey
  · exact ez

/-- A form that is a multiple of the scalar product on two columns of a rotation, is so on their plane. -/
theorem plane_form {T : Iso} (hT : T.IsRigid) {q00 q11 q22 q02 q12 s : ℝ} (h0 : form5 q00 q11 q22 q02 q12 T.R.c0 T.R.c0 = s)
    (h1 : form5 q00 q11 q22 q02 q12 T.R.c1 T.R.c1 = s) (h01 : form5 q00 q11 q22 q02 q12 T.R.c0 T.R.c1 = 0) (x y : V3)
    (hx : x.dot (planeNormal T) = 0) (hy : y.dot (planeNormal T) = 0) : form5 q00 q11 q22 q02 q12 x y = s * x.dot y := by
  have hexp : ∀ z : V3, z.dot (planeNormal T) = 0 → z = V3.smul (z.dot T.R.c0) T.R.c0 + V3.smul (z.dot T.R.c1) T.R.c1 := by
    intro z hz
    obtain ⟨r1, r2, r3, r4, r5, r6⟩ := M3.IsRot.rows hT
    simp only [V3.dot, planeNormal] at hz
    ext <;> simp [V3.smul, V3.dot, M3.c0, M3.c1]
    · linear_combination (-z.x) * r1 - z.y * r4 - z.z * r5 + T.R.m02 * hz
    · linear_combination (-z.x) * r4 - z.y * r2 - z.z * r6 + T.R.m12 * hz
    · linear_combination (-z.x) * r5 - z.y * r6 - z.z * r3 + T.R.m22 * hz
  have hlin : ∀ a b a' b' : ℝ, form5 q00 q11 q22 q02 q12 (V3.smul a T.R.c0 + V3.smul b T.R.c1) (V3.smul a' T.R.c0 + V3.smul b' T.R.c1) =
      a * a' * form5 q00 q11 q22 q02 q12 T.R.c0 T.R.c0 + b * b' * form5 q00 q11 q22 q02 q12 T.R.c1 T.R.c1 +
      (a * b' + b * a') * form5 q00 q11 q22 q02 q12 T.R.c0 T.R.c1 := by
    intro a b a' b'
    simp [form5, V3.smul]; ring
  have hdot : x.dot y = x.dot T.R.c0 * y.dot T.R.c0 + x.dot T.R.c1 * y.dot T.R.c1 := by
    conv_lhs => rw [hexp x hx]
    simp [V3.dot, V3.smul]; ring
  conv_lhs => rw [hexp x hx, hexp y hy]
  rw [hlin, h0, h1, h01, hdot]
  ring

/-! ### Another camera -/

/-- The scalar product plus a small product of two linear forms is positive. -/
theorem form_positive {n v : V3} {e : ℝ} (he : e * (4 * (n.normSq + v.normSq)) = 1) (hpos : 0 < e) {x : V3} (hx : x ≠ 0) :
    0 < x.normSq + e * (2 * n.dot x * v.dot x) := by
  have hxx := V3.normSq_pos hx
  have h1 : (n.dot x) ^ 2 ≤ n.normSq * x.normSq := by
    simp only [V3.dot, V3.normSq]
    nlinarith [sq_nonneg (n.x * x.y - n.y * x.x), sq_nonneg (n.x * x.z - n.z * x.x), sq_nonneg (n.y * x.z - n.z * x.y)]
  have h2 : (v.dot x) ^ 2 ≤ v.normSq * x.normSq := by
    simp only [V3.dot, V3.normSq]
    nlinarith [sq_nonneg (v.x * x.y - v.y * x.x), sq_nonneg (v.x * x.z - v.z * x.x), sq_nonneg (v.y * x.z - v.z * x.y)]
  have h3 : -((n.normSq + v.normSq) * x.normSq) ≤ 2 * n.dot x * v.dot x := by nlinarith [sq_nonneg (n.dot x + v.dot x)]
  have h4 := mul_le_mul_of_nonneg_left h3 hpos.le
  nlinarith

/-- A matrix with these columns and their product is a rotation. -/
theorem rot_of_two {x y : V3} (hx : x.dot x = 1) (hy : y.dot y = 1) (hxy : x.dot y = 0) :
    (⟨x.x, y.x, (x.cross y).x, x.y, y.y, (x.cross y).y, x.z, y.z, (x.cross y).z⟩ : M3).IsRot := by
  simp only [V3.dot] at hx hy hxy
  have hn : (x.cross y).x * (x.cross y).x + (x.cross y).y * (x.cross y).y + (x.cross y).z * (x.cross y).z = 1 := by
    simp only [V3.cross]
    linear_combination hx * (y.x * y.x + y.y * y.y + y.z * y.z) + hy - hxy * (x.x * y.x + x.y * y.y + x.z * y.z)
  apply M3.IsRot.of_cols
  · exact hx
  · exact hy
  · exact hn
  · exact hxy
  · simp only [V3.cross]; ring
  · simp only [V3.cross]; ring
  · simp only [V3.cross] at hn
    simp only [M3.det, V3.cross]
    linear_combination hn

theorem unit_of_div {f a : ℝ} (hf : f ≠ 0) (ha : a ≠ 0) (h : (f / a) ^ 2 = f ^ 2) : a * a = 1 := by
  rw [div_pow, div_eq_iff (pow_ne_zero 2 ha)] at h
  have h2 : f ^ 2 * (a * a - 1) = 0 := by linear_combination -h
  have := (mul_eq_zero.1 h2).resolve_left (pow_ne_zero 2 hf)
  linarith

/-- The symmetric product of two vectors that are not zero, is no multiple of the scalar product. -/
theorem zero_of_scalar {n v : V3} (hv : v ≠ 0) (f1 : n.x * v.x = n.y * v.y) (f2 : n.x * v.x = n.z * v.z)
    (hmix : n.x * v.y + n.y * v.x = 0) (f3 : n.x * v.z + n.z * v.x = 0) (f4 : n.y * v.z + n.z * v.y = 0) : n = 0 := by
  have g1 : (n.x * v.y) ^ 2 + (n.x * v.x) ^ 2 = 0 := by linear_combination (n.x * v.y) * hmix + (n.x * v.x) * f1
  have g2 : (n.x * v.z) ^ 2 + (n.x * v.x) ^ 2 = 0 := by linear_combination (n.x * v.z) * f3 + (n.x * v.x) * f2
  have g3 : (n.y * v.z) ^ 2 + (n.y * v.y) ^ 2 = 0 := by linear_combination (n.y * v.z) * f4 + (n.y * v.y) * (f2 - f1)
  have sq0 : ∀ {s t : ℝ}, s ^ 2 + t ^ 2 = 0 → s = 0 ∧ t = 0 := by
    intro s t h
    exact ⟨pow_eq_zero_iff (two_ne_zero) |>.1 (by linarith [sq_nonneg s, sq_nonneg t]),
      pow_eq_zero_iff (two_ne_zero) |>.1 (by linarith [sq_nonneg s, sq_nonneg t])⟩
  obtain ⟨k1, k0⟩ := sq0 g1
  obtain ⟨k2, -⟩ := sq0 g2
  obtain ⟨k3, -⟩ := sq0 g3
  have hvne : v.x ≠ 0 ∨ v.y ≠ 0 ∨ v.z ≠ 0 := by
    by_contra hno
    push Not at hno
    exact hv (by ext <;> simp [hno])
  have l : ∀ t : ℝ, t * v.x = 0 → t * v.y = 0 → t * v.z = 0 → t = 0 := by
    intro t t1 t2 t3
    rcases hvne with h | h | h
    · exact (mul_eq_zero.1 t1).resolve_right h
    · exact (mul_eq_zero.1 t2).resolve_right h
    · exact (mul_eq_zero.1 t3).resolve_right h
  ext
  · exact l _ k0 k1 k2
  · exact l _ (by linarith) (by linarith) k3
  · exact l _ (by linarith) (by linarith) (by linarith)

/-- If the planes have few directions then another camera sees the targets, in other poses, at the same pixels. -/
theorem camera_other {i : Intr} (hx : i.fx ≠ 0) (hy : i.fy ≠ 0) {ns : List V3} (hn0 : ∀ n ∈ ns, n ≠ 0) (hfew : FewDirections ns) :
    ∃ i' : Intr, ¬ SameCamera i' i ∧ 0 < i'.fx * i.fx ∧ 0 < i'.fy * i.fy ∧
      ∀ T : Iso, T.IsRigid → planeNormal T ∈ ns → ∃ T' : Iso, T'.IsRigid ∧ ∀ p : V3, p.z = 0 →
        (0 < (T.apply p).z → 0 < (T'.apply p).z) ∧
        ((T.apply p).z ≠ 0 → (T'.apply p).z ≠ 0 ∧ pinhole i' (T'.apply p) = pinhole i (T.apply p)) := by
  obtain ⟨n, v, hn, hv, hmix, hpar⟩ := hfew
  have hnn := V3.normSq_pos hn
  have hvv := V3.normSq_pos hv
  obtain ⟨e, he⟩ : ∃ e, e = 1 / (4 * (n.normSq + v.normSq)) := ⟨_, rfl⟩
  have hepos : 0 < e := by rw [he]; positivity
  have he1 : e * (4 * (n.normSq + v.normSq)) = 1 := by rw [he]; field_simp
  obtain ⟨s00, h00⟩ : ∃ s, s = 1 + 2 * e * n.x * v.x := ⟨_, rfl⟩
  obtain ⟨s11, h11⟩ : ∃ s, s = 1 + 2 * e * n.y * v.y := ⟨_, rfl⟩
  obtain ⟨s22, h22⟩ : ∃ s, s = 1 + 2 * e * n.z * v.z := ⟨_, rfl⟩
  obtain ⟨s02, h02⟩ : ∃ s, s = e * (n.x * v.z + n.z * v.x) := ⟨_, rfl⟩
  obtain ⟨s12, h12⟩ : ∃ s, s = e * (n.y * v.z + n.z * v.y) := ⟨_, rfl⟩
  have hS : ∀ x y : V3, form5 s00 s11 s22 s02 s12 x y = x.dot y + e * (n.dot x * v.dot y + v.dot x * n.dot y) := by
    intro x y
    simp only [form5, V3.dot, h00, h11, h22, h02, h12]
    linear_combination (-(e * (x.x * y.y + x.y * y.x))) * hmix
  have hSpos : ∀ x : V3, x ≠ 0 → 0 < form5 s00 s11 s22 s02 s12 x x := by
    intro x hx
    rw [hS]
    have := form_positive he1 hepos hx
    simp only [V3.normSq] at this
    linarith
  have p00 : 0 < s00 := by
    have := hSpos ⟨1, 0, 0⟩ (fun h => by have := congrArg V3.x h; simp at this)
    simpa [form5] using this
  have p11 : 0 < s11 := by
    have := hSpos ⟨0, 1, 0⟩ (fun h => by have := congrArg V3.y h; simp at this)
    simpa [form5] using this
  obtain ⟨μ, hμ⟩ : ∃ μ, μ = s22 - s02 * s02 / s00 - s12 * s12 / s11 := ⟨_, rfl⟩
  have hμpos : 0 < μ := by
    have := hSpos ⟨-(s02 / s00), -(s12 / s11), 1⟩ (fun h => by have := congrArg V3.z h; simp at this)
    have e2 : form5 s00 s11 s22 s02 s12 ⟨-(s02 / s00), -(s12 / s11), 1⟩ ⟨-(s02 / s00), -(s12 / s11), 1⟩ = μ := by
      simp only [form5, hμ]; field_simp; ring
    rwa [e2] at this
  obtain ⟨a, ha⟩ : ∃ a, a = Real.sqrt (s00 / μ) := ⟨_, rfl⟩
  obtain ⟨c, hc⟩ : ∃ c, c = Real.sqrt (s11 / μ) := ⟨_, rfl⟩
  have hapos : 0 < a := by rw [ha]; exact Real.sqrt_pos.2 (by positivity)
  have hcpos : 0 < c := by rw [hc]; exact Real.sqrt_pos.2 (by positivity)
  have haa : a * a = s00 / μ := by rw [ha]; exact Real.mul_self_sqrt (by positivity)
  have hcc : c * c = s11 / μ := by rw [hc]; exact Real.mul_self_sqrt (by positivity)
  obtain ⟨b, hb⟩ : ∃ b, b = s02 / (μ * a) := ⟨_, rfl⟩
  obtain ⟨d, hd⟩ : ∃ d, d = s12 / (μ * c) := ⟨_, rfl⟩
  have haa' : μ * (a * a) = s00 := by rw [haa]; field_simp
  have hcc' : μ * (c * c) = s11 := by rw [hcc]; field_simp
  have hab : μ * (a * b) = s02 := by rw [hb]; field_simp
  have hcd : μ * (c * d) = s12 := by rw [hd]; field_simp
  have hbb : μ * (b * b) = s02 * s02 / s00 := by
    rw [eq_div_iff p00.ne', ← haa', ← hab]; ring
  have hdd : μ * (d * d) = s12 * s12 / s11 := by
    rw [eq_div_iff p11.ne', ← hcc', ← hcd]; ring
  have hone : μ * (b * b + d * d + 1) = s22 := by
    rw [mul_add, mul_add, hbb, hdd, hμ]; ring
  obtain ⟨r, hr⟩ : ∃ r, r = Real.sqrt μ := ⟨_, rfl⟩
  have hrpos : 0 < r := by rw [hr]; exact Real.sqrt_pos.2 hμpos
  have hrr : r * r = μ := by rw [hr]; exact Real.mul_self_sqrt hμpos.le
  have hdot : ∀ x y : V3, (V3.smul r (shear a b c d x)).dot (V3.smul r (shear a b c d y)) =
      x.dot y + e * (n.dot x * v.dot y + v.dot x * n.dot y) := by
    intro x y
    rw [← hS]
    have : (V3.smul r (shear a b c d x)).dot (V3.smul r (shear a b c d y)) = (r * r) * (shear a b c d x).dot (shear a b c d y) := by
      simp only [V3.dot, V3.smul]; ring
    rw [this, hrr, shear_dot]
    simp only [form5]
    rw [← haa', ← hcc', ← hone, ← hab, ← hcd]
    ring
  refine ⟨⟨i.fx / a, i.fy / c, i.cx - i.fx * b / a, i.cy - i.fy * d / c⟩, ?_, ?_, ?_, ?_⟩
  · rintro ⟨e1, e2, e3, e4⟩
    simp only at e1 e2 e3 e4
    have a1 : a * a = 1 := unit_of_div hx hapos.ne' e1
    have c1 : c * c = 1 := unit_of_div hy hcpos.ne' e2
    have b0 : b = 0 := by
      have h : i.fx * b / a = 0 := by linarith
      exact (mul_eq_zero.1 ((div_eq_zero_iff.1 h).resolve_right hapos.ne')).resolve_left hx
    have d0 : d = 0 := by
      have h : i.fy * d / c = 0 := by linarith
      exact (mul_eq_zero.1 ((div_eq_zero_iff.1 h).resolve_right hcpos.ne')).resolve_left hy
    rw [a1] at haa'
    rw [c1] at hcc'
    rw [b0] at hab hone
    rw [d0] at hcd hone
    -- the products of the components
    have f1 : n.x * v.x = n.y * v.y := by
      have : e * (n.x * v.x - n.y * v.y) = 0 := by linarith
      have := (mul_eq_zero.1 this).resolve_left hepos.ne'
      linarith
    have f2 : n.x * v.x = n.z * v.z := by
      have : e * (n.x * v.x - n.z * v.z) = 0 := by linarith
      have := (mul_eq_zero.1 this).resolve_left hepos.ne'
      linarith
    have f3 : n.x * v.z + n.z * v.x = 0 := (mul_eq_zero.1 (by linarith : e * (n.x * v.z + n.z * v.x) = 0)).resolve_left hepos.ne'
    have f4 : n.y * v.z + n.z * v.y = 0 := (mul_eq_zero.1 (by linarith : e * (n.y * v.z + n.z * v.y) = 0)).resolve_left hepos.ne'
    exact hn (zero_of_scalar hv f1 f2 hmix f3 f4)
  · have : i.fx / a * i.fx = i.fx * i.fx / a := by ring
    simp only [this]
    exact div_pos (mul_self_pos.2 hx) hapos
  · have : i.fy / c * i.fy = i.fy * i.fy / c := by ring
    simp only [this]
    exact div_pos (mul_self_pos.2 hy) hcpos
  · intro T hT hmem
    obtain ⟨g1, g2, g3, g4, g5, g6⟩ := M3.IsRot.cols hT
    have hm0 := V3.normSq_pos (hn0 _ hmem)
    have hzero : ∀ x y : V3, x.dot (planeNormal T) = 0 → y.dot (planeNormal T) = 0 → n.dot x * v.dot y + v.dot x * n.dot y = 0 := by
      have hperp : ∀ w : V3, (planeNormal T).cross w = 0 → ∀ x : V3, x.dot (planeNormal T) = 0 → w.dot x = 0 := by
        intro w hw x hxm
        obtain ⟨m, hm⟩ : ∃ m, m = planeNormal T := ⟨_, rfl⟩
        rw [← hm] at hw hxm hm0
        have cx := congrArg V3.x hw; have cy := congrArg V3.y hw; have cz := congrArg V3.z hw
        simp only [V3.cross, V3.zero_x, V3.zero_y, V3.zero_z] at cx cy cz
        simp only [V3.dot, V3.normSq] at hxm hm0 ⊢
        refine (mul_eq_zero.1 (?_ : _ * (m.x * m.x + m.y * m.y + m.z * m.z) = 0)).resolve_right hm0.ne'
        linear_combination (m.x * w.x + m.y * w.y + m.z * w.z) * hxm - (x.y * m.z - x.z * m.y) * cx - (x.z * m.x - x.x * m.z) * cy -
          (x.x * m.y - x.y * m.x) * cz
      intro x y hxm hym
      rcases hpar _ hmem with h | h
      · rw [hperp n h x hxm, hperp n h y hym]; ring
      · rw [hperp v h x hxm, hperp v h y hym]; ring
    have o0 : T.R.c0.dot (planeNormal T) = 0 := by simp only [V3.dot, M3.c0, planeNormal]; exact g5
    have o1 : T.R.c1.dot (planeNormal T) = 0 := by simp only [V3.dot, M3.c1, planeNormal]; exact g6
    obtain ⟨u0, hu0⟩ : ∃ u, u = V3.smul r (shear a b c d T.R.c0) := ⟨_, rfl⟩
    obtain ⟨u1, hu1⟩ : ∃ u, u = V3.smul r (shear a b c d T.R.c1) := ⟨_, rfl⟩
    have q0 : u0.dot u0 = 1 := by rw [hu0, hdot, hzero _ _ o0 o0]; simp only [V3.dot, M3.c0]; linarith
    have q1 : u1.dot u1 = 1 := by rw [hu1, hdot, hzero _ _ o1 o1]; simp only [V3.dot, M3.c1]; linarith
    have q2 : u0.dot u1 = 0 := by rw [hu0, hu1, hdot, hzero _ _ o0 o1]; simp only [V3.dot, M3.c0, M3.c1]; linarith
    refine ⟨⟨_, V3.smul r (shear a b c d T.t)⟩, rot_of_two q0 q1 q2, ?_⟩
    intro p hp
    have happ : Iso.apply ⟨⟨u0.x, u1.x, (u0.cross u1).x, u0.y, u1.y, (u0.cross u1).y, u0.z, u1.z, (u0.cross u1).z⟩,
        V3.smul r (shear a b c d T.t)⟩ p = V3.smul r (shear a b c d (T.apply p)) := by
      rw [hu0, hu1]
      ext <;> simp [Iso.apply, M3.mulVec, V3.smul, shear, M3.c0, M3.c1, hp] <;> ring
    rw [happ]
    refine ⟨fun h => mul_pos hrpos h, fun h => ⟨mul_ne_zero hrpos.ne' h, ?_⟩⟩
    obtain ⟨q, hq⟩ : ∃ q, q = T.apply p := ⟨_, rfl⟩
    rw [← hq] at h ⊢
    have := hapos.ne'; have := hcpos.ne'; have := hrpos.ne'
    ext <;> simp only [pinhole, V3.smul, shear] <;> field_simp <;> ring

end RCT
