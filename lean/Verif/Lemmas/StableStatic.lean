import Verif.Lemmas.Stable
import Verif.Spec.StableStatic

/-!
# Stability of the poses of several cameras
-/

namespace RCT

open Spec

theorem Spec.Close.nonneg {e : ℝ} {S T : Iso} (h : Close e S T) : 0 ≤ e := by
  have := (V3.norm_nonneg _).trans (h 0)
  rw [norm_zero_v3] at this
  linarith

theorem Spec.Close.mul_left {e : ℝ} {S T C : Iso} (hC : C.IsRigid) (h : Close e S T) : Close e (C * S) (C * T) := fun q => by
  rw [Iso.apply_mul, Iso.apply_mul, hC.dist]
  exact h q

theorem Spec.Close.mul_right {e : ℝ} {S T C : Iso} (hC : C.IsRigid) (h : Close e S T) : Close ((1 + C.t.norm) * e) (S * C) (T * C) := fun q => by
  rw [Iso.apply_mul, Iso.apply_mul]
  refine (h _).trans ?_
  have h1 := apply_norm_le hC q
  have h2 := C.t.norm_nonneg
  have h3 := q.norm_nonneg
  have h4 := h.nonneg
  have h5 : e * (1 + (C.apply q).norm) ≤ e * (1 + (q.norm + C.t.norm)) := mul_le_mul_of_nonneg_left (by linarith) h4
  have h6 : 0 ≤ e * (C.t.norm * q.norm) := by positivity
  nlinarith

theorem Spec.Close.trans {e e' : ℝ} {S T U : Iso} (h : Close e S T) (h' : Close e' T U) : Close (e + e') S U := fun q => by
  have := V3.norm_sub_le (S.apply q) (T.apply q) (U.apply q)
  have := h q
  have := h' q
  linarith

theorem Spec.Close.mul {e : ℝ} {S T S' T' : Iso} (hS : S.IsRigid) (hT' : T'.IsRigid) (h : Close e S T) (h' : Close e S' T') :
    Close ((2 + T'.t.norm) * e) (S * S') (T * T') := by
  have := (h'.mul_left hS).trans (h.mul_right hT')
  refine this.mono (le_of_eq (by ring))

theorem Spec.Close.inverse {e : ℝ} {S T : Iso} (hS : S.IsRigid) (hT : T.IsRigid) (h : Close e S T) :
    Close ((1 + T.inv.t.norm) * e) S.inv T.inv := by
  have h1 := (h.mul_right hT.inv).mul_left hS.inv
  rw [Iso.mul_inv hT, Iso.mul_one, ← Iso.mul_assoc, Iso.inv_mul hS, Iso.one_mul] at h1
  exact h1.symm

theorem close_self (S : Iso) : Close 0 S S := fun q => by
  have e : S.apply q - S.apply q = 0 := by ext <;> simp
  rw [e, norm_zero_v3, zero_mul]

/-- A camera that sees a target close to where it should is close to its true pose if the target is. -/
theorem camera_lipschitz {T Y : Iso} (hT : T.IsRigid) (hY : Y.IsRigid) : ∃ k : ℝ, 0 < k ∧ ∀ (A B : Iso) (e : ℝ), A.IsRigid → B.IsRigid →
    Close e (A.inv * B) (T.inv * Y) → Close e B Y → Close (k * e) A T := by
  obtain ⟨n, hn⟩ : ∃ n, n = (T.inv * Y).inv.t.norm := ⟨_, rfl⟩
  have hn0 : 0 ≤ n := by rw [hn]; exact V3.norm_nonneg _
  refine ⟨(2 + n) * (1 + n), by positivity, fun A B e hA hB h hB' => ?_⟩
  have he := h.nonneg
  have h1 := h.inverse (hA.inv.mul hB) (hT.inv.mul hY)
  rw [← hn] at h1
  have h2 := Spec.Close.mul hB (hT.inv.mul hY).inv (hB'.mono (e' := (1 + n) * e) (by nlinarith)) h1
  rw [← hn, Iso.mul_inv_rev hA.inv, Iso.inv_inv hA, Iso.mul_inv_cancel_left hB, Iso.mul_inv_rev hT.inv, Iso.inv_inv hT,
    Iso.mul_inv_cancel_left hY] at h2
  exact h2.mono (le_of_eq (by ring))

/-- All points are in front of the camera and their images are within `r` of the true ones. -/
def NearView (r : ℝ) (i : Intr) (S T : Iso) (pts : List V3) : Prop := ∀ k ∈ pts, 0 < (S.apply k).z ∧
  |(pinhole i (S.apply k)).x - (pinhole i (T.apply k)).x| ≤ r ∧ |(pinhole i (S.apply k)).y - (pinhole i (T.apply k)).y| ≤ r

theorem NearView.mono {r r' : ℝ} {i : Intr} {S T : Iso} {pts : List V3} (h : NearView r i S T pts) (hr : r ≤ r') :
    NearView r' i S T pts := fun k hk => ⟨(h k hk).1, (h k hk).2.1.trans hr, (h k hk).2.2.trans hr⟩

theorem view_stable {i : Intr} {T : Iso} (hT : T.IsRigid) {pts : List V3} (hw : SeenWell i T pts) (hz : ∀ k ∈ pts, 0 < (T.apply k).z)
    {e : ℝ} (he : 0 < e) : ∃ r : ℝ, 0 < r ∧ ∀ S : Iso, S.IsRigid → NearView r i S T pts → Close e S T := by
  obtain ⟨⟨a, ha, b, hb, c, hc, d, hd, hq⟩, hfx, hfy, hcam⟩ := hw
  have hmem : ∀ k ∈ [a, b, c, d], k ∈ pts := by
    intro k hk
    simp only [List.mem_cons, List.not_mem_nil, or_false] at hk
    rcases hk with rfl | rfl | rfl | rfl <;> assumption
  obtain ⟨r, hr, h⟩ := planar_stable hfx hfy hT hq hcam (fun k hk => hz k (hmem k hk)) he
  exact ⟨r, hr, fun S hS hn => h S hS fun k hk => hn k (hmem k hk)⟩

/-- A bound that works for each of finitely many cases works for all. -/
theorem finite_min {P : Nat → ℝ → Prop} (hmono : ∀ c r r', P c r → r' ≤ r → P c r') (n : Nat)
    (h : ∀ c < n, ∃ r : ℝ, 0 < r ∧ P c r) : ∃ r : ℝ, 0 < r ∧ ∀ c < n, P c r := by
  induction n with
  | zero => exact ⟨1, one_pos, fun c hc => absurd hc (Nat.not_lt_zero c)⟩
  | succ n ih =>
    obtain ⟨r, hr, h1⟩ := ih fun c hc => h c (Nat.lt_succ_of_lt hc)
    obtain ⟨r', hr', h2⟩ := h n (Nat.lt_succ_self n)
    refine ⟨min r r', lt_min hr hr', fun c hc => ?_⟩
    rcases Nat.lt_succ_iff_lt_or_eq.1 hc with hc | rfl
    · exact hmono c _ _ (h1 c hc) (min_le_left _ _)
    · exact hmono c _ _ h2 (min_le_right _ _)

theorem finite_max (f : Nat → ℝ) (n : Nat) : ∃ m : ℝ, 1 ≤ m ∧ ∀ c < n, f c ≤ m := by
  induction n with
  | zero => exact ⟨1, le_refl _, fun c hc => absurd hc (Nat.not_lt_zero c)⟩
  | succ n ih =>
    obtain ⟨m, hm, h⟩ := ih
    refine ⟨max m (f n), hm.trans (le_max_left _ _), fun c hc => ?_⟩
    rcases Nat.lt_succ_iff_lt_or_eq.1 hc with hc | rfl
    · exact (h c hc).trans (le_max_left _ _)
    · exact le_max_right _ _

end RCT
