import Verif.Spec.SeparateCircles
import Verif.Props.CircleDetector

/-!
# C218 Separate circles are reported once each
-/

namespace RCT

open Spec

/-- If detections of one class agree and detections of different classes do not, the groups are the classes. -/
theorem grouping_classes {α β : Type} [Inhabited β] {same : α → α → Prop} {all : List α} {gs : List (List α)}
    (G : Grouping same all gs) (D : β → α → Prop) (os : List β) (hex : ∀ c ∈ all, ∃ o ∈ os, D o c)
    (hsame : ∀ o ∈ os, ∀ f ∈ all, ∀ c ∈ all, D o f → D o c → same f c)
    (hdiff : ∀ o ∈ os, ∀ o' ∈ os, ∀ f ∈ all, ∀ c ∈ all, D o f → D o' c → same f c → o = o') :
    ∃ own : List α → β, (∀ g ∈ gs, own g ∈ os ∧ g = (open Classical in all.filter fun c => D (own g) c)) ∧
      (gs.map own).Nodup ∧ ∀ o ∈ os, (∃ c ∈ all, D o c) → ∃ g ∈ gs, own g = o := by
  classical
  let own : List α → β := fun g => if h : ∃ o ∈ os, ∀ c ∈ g, D o c then h.choose else default
  have hsub : ∀ g ∈ gs, ∀ c ∈ g, c ∈ all := fun g hg c hc => (G.order g hg).subset hc
  have hown : ∀ g ∈ gs, own g ∈ os ∧ ∀ c ∈ g, D (own g) c := by
    intro g hg
    have h : ∃ o ∈ os, ∀ c ∈ g, D o c := by
      cases g with
      | nil => exact absurd rfl (G.nonempty _ hg)
      | cons f g =>
        have hf := hsub _ hg f (by simp)
        obtain ⟨o, ho, hof⟩ := hex f hf
        refine ⟨o, ho, ?_⟩
        intro c hc
        rcases List.mem_cons.1 hc with rfl | hc'
        · exact hof
        · have hca := hsub _ hg c hc
          obtain ⟨o', ho', hoc⟩ := hex c hca
          have := hdiff o ho o' ho' f hf c hca hof hoc (G.close f g hg c hc')
          rwa [this]
    simp only [own, dif_pos h]
    exact h.choose_spec
  have hnodup : (gs.map own).Nodup := by
    rw [List.Nodup, List.pairwise_map, List.pairwise_iff_getElem]
    intro i j hi hj hij he
    have hgi := List.getElem_mem hi
    have hgj := List.getElem_mem hj
    obtain ⟨f, g, hfg⟩ := List.exists_cons_of_ne_nil (G.nonempty _ hgi)
    obtain ⟨f', g', hfg'⟩ := List.exists_cons_of_ne_nil (G.nonempty _ hgj)
    refine G.apart i j f g f' g' hij (by rw [List.getElem?_eq_getElem hi, hfg]) (by rw [List.getElem?_eq_getElem hj, hfg']) ?_
    have h1 := (hown _ hgi).2 f (by rw [hfg]; simp)
    have h2 := (hown _ hgj).2 f' (by rw [hfg']; simp)
    rw [← he] at h2
    exact hsame _ (hown _ hgi).1 f (hsub _ hgi f (by rw [hfg]; simp)) f' (hsub _ hgj f' (by rw [hfg']; simp)) h1 h2
  have huniq : ∀ o ∈ os, ∀ g ∈ gs, ∀ c ∈ g, D o c → own g = o := by
    intro o ho g hg c hc hoc
    have hca := hsub g hg c hc
    exact hdiff _ (hown g hg).1 o ho c hca c hca ((hown g hg).2 c hc) hoc (hsame o ho c hca c hca hoc hoc)
  refine ⟨own, ?_, hnodup, ?_⟩
  · intro g hg
    refine ⟨(hown g hg).1, ?_⟩
    have hsl : g.Sublist (all.filter fun c => D (own g) c) := by
      have := (G.order g hg).filter fun c => decide (D (own g) c)
      rwa [List.filter_eq_self.2 (by simpa using (hown g hg).2)] at this
    refine hsl.eq_of_length ?_
    have hlen := (G.perm.filter fun c => decide (D (own g) c)).length_eq
    rw [← hlen]
    obtain ⟨l1, l2, hl⟩ := List.append_of_mem hg
    have hne : ∀ g' ∈ l1 ++ l2, g'.filter (fun c => decide (D (own g) c)) = [] := by
      intro g' hg'
      have hg's : g' ∈ gs := by rw [hl]; simp only [List.mem_append, List.mem_cons] at hg' ⊢; tauto
      rw [List.filter_eq_nil_iff]
      intro c hc hd
      have he := huniq (own g) (hown g hg).1 g' hg's c hc (by simpa using hd)
      have hn := hnodup
      rw [hl, List.map_append, List.map_cons, List.nodup_middle, List.nodup_cons, ← List.map_append] at hn
      exact hn.1 (List.mem_map.2 ⟨g', hg', he⟩)
    have h1 : l1.flatten.filter (fun c => decide (D (own g) c)) = [] := by
      rw [List.filter_flatten, List.flatten_eq_nil_iff]
      intro x hx
      obtain ⟨g', hg', rfl⟩ := List.mem_map.1 hx
      exact hne g' (List.mem_append_left _ hg')
    have h2 : l2.flatten.filter (fun c => decide (D (own g) c)) = [] := by
      rw [List.filter_flatten, List.flatten_eq_nil_iff]
      intro x hx
      obtain ⟨g', hg', rfl⟩ := List.mem_map.1 hx
      exact hne g' (List.mem_append_right _ hg')
    conv_rhs => rw [hl]
    rw [List.flatten_append, List.flatten_cons, List.filter_append, List.filter_append, h1, h2,
      List.filter_eq_self.2 (by simpa using (hown g hg).2)]
    simp
  · rintro o ho ⟨c, hc, hoc⟩
    obtain ⟨g, hg, hcg⟩ := List.mem_flatten.1 (G.perm.mem_iff.2 hc)
    exact ⟨g, hg, huniq o ho g hg c hcg hoc⟩

theorem wmean_in_disc (wt : Center → ℝ) (g : List Center) (hg : g ≠ []) (h : ∀ c ∈ g, 0 < wt c) (x y δ : ℝ)
    (hδ : 0 ≤ δ) (hd : ∀ c ∈ g, (c.location.x - x) ^ 2 + (c.location.y - y) ^ 2 ≤ δ ^ 2) :
    (wmean wt (·.location.x) g - x) ^ 2 + (wmean wt (·.location.y) g - y) ^ 2 ≤ δ ^ 2 := by
  obtain ⟨a, ha⟩ : ∃ a, a = wmean wt (·.location.x) g - x := ⟨_, rfl⟩
  obtain ⟨b, hb⟩ : ∃ b, b = wmean wt (·.location.y) g - y := ⟨_, rfl⟩
  rw [← ha, ← hb]
  have hs := sum_pos_of hg h
  have hlin : wmean wt (fun c => a * (c.location.x - x) + b * (c.location.y - y)) g = a * a + b * b := by
    have hx : (g.map fun c => wt c * c.location.x).sum = (a + x) * (g.map wt).sum := by
      rw [ha]; unfold wmean; field_simp; ring
    have hy : (g.map fun c => wt c * c.location.y).sum = (b + y) * (g.map wt).sum := by
      rw [hb]; unfold wmean; field_simp; ring
    have hexp : ∀ l : List Center, (l.map fun c => wt c * (a * (c.location.x - x) + b * (c.location.y - y))).sum
        = a * ((l.map fun c => wt c * c.location.x).sum - x * (l.map wt).sum)
          + b * ((l.map fun c => wt c * c.location.y).sum - y * (l.map wt).sum) := by
      intro l
      induction l with
      | nil => simp
      | cons c l ih => simp only [List.map_cons, List.sum_cons, ih]; ring
    rw [wmean, hexp, hx, hy]
    field_simp
    ring
  have hb2 : wmean wt (fun c => a * (c.location.x - x) + b * (c.location.y - y)) g ≤ Real.sqrt (a ^ 2 + b ^ 2) * δ := by
    have hs0 := Real.sqrt_nonneg (a ^ 2 + b ^ 2)
    have hss : Real.sqrt (a ^ 2 + b ^ 2) ^ 2 = a ^ 2 + b ^ 2 := Real.sq_sqrt (by positivity)
    refine (wmean_bounds wt _ g hg h (-(Real.sqrt (a ^ 2 + b ^ 2) * δ)) _ ?_).2
    intro c hc
    have hdc := hd c hc
    have hsq : (a * (c.location.x - x) + b * (c.location.y - y)) ^ 2 ≤ (Real.sqrt (a ^ 2 + b ^ 2) * δ) ^ 2 := by
      rw [mul_pow, hss]
      have := mul_le_mul_of_nonneg_left hdc (show 0 ≤ a ^ 2 + b ^ 2 by positivity)
      nlinarith [sq_nonneg (a * (c.location.y - y) - b * (c.location.x - x))]
    exact abs_le.1 (abs_le_of_sq_le_sq hsq (by positivity))
  rw [hlin] at hb2
  obtain ⟨s, hsd⟩ : ∃ s, s = Real.sqrt (a ^ 2 + b ^ 2) := ⟨_, rfl⟩
  have hs0 : 0 ≤ s := by rw [hsd]; exact Real.sqrt_nonneg _
  have hss : s ^ 2 = a ^ 2 + b ^ 2 := by rw [hsd]; exact Real.sq_sqrt (by positivity)
  rw [← hsd] at hb2
  have h1 : s ^ 2 ≤ s * δ := by rw [hss]; linarith
  rw [← hss]
  rcases hs0.eq_or_lt with h0 | h0
  · rw [← h0]; nlinarith [sq_nonneg δ]
  · have : s ≤ δ := by nlinarith
    exact pow_le_pow_left₀ hs0 this 2

theorem near_of_shown {δ ε r d : ℝ} (hr : 2 * δ ≤ r) (hd : 2 * ε ≤ d) (hδ : 0 ≤ δ) {o : Disc} {f c : Center}
    (hf : o.ShownBy δ ε f) (hc : o.ShownBy δ ε c) : SameCircle r d f c := by
  refine ⟨by linarith, ?_, ?_⟩
  · have h := dist_triangle (ax := o.center.x) (ay := o.center.y) (bx := f.location.x) (by' := f.location.y)
      (cx := c.location.x) (cy := c.location.y) (r := δ) (by nlinarith [hf.1]) (by nlinarith [hc.1])
    exact h.trans (pow_le_pow_left₀ (by linarith) hr 2)
  · have := abs_sub_le f.radius o.radius c.radius
    have h2 := hf.2
    have h3 := hc.2
    rw [abs_sub_comm c.radius] at h3
    linarith

theorem norm2_triangle {ax ay bx by' r s : ℝ} (hr : 0 ≤ r) (hs : 0 ≤ s) (h1 : ax ^ 2 + ay ^ 2 ≤ r ^ 2)
    (h2 : bx ^ 2 + by' ^ 2 ≤ s ^ 2) : (ax + bx) ^ 2 + (ay + by') ^ 2 ≤ (r + s) ^ 2 := by
  have hsq : (ax * bx + ay * by') ^ 2 ≤ (r * s) ^ 2 := by
    have := mul_le_mul h1 h2 (by positivity) (by positivity)
    nlinarith [sq_nonneg (ax * by' - ay * bx)]
  have := (abs_le.1 (abs_le_of_sq_le_sq hsq (by positivity))).2
  nlinarith

theorem same_of_near {δ ε r d : ℝ} (hδ : 0 ≤ δ) {o o' : Disc} {f c : Center} (hf : o.ShownBy δ ε f)
    (hc : o'.ShownBy δ ε c) (h : SameCircle r d f c) : ¬ Disc.Apart (r + 2 * δ) (d + 2 * ε) o o' := by
  obtain ⟨h0, h1, h2⟩ := h
  rintro (ha | ha)
  · refine absurd ?_ (not_le.2 ha)
    have e1 := norm2_triangle (ax := o.center.x - f.location.x) (ay := o.center.y - f.location.y)
      (bx := f.location.x - c.location.x) (by' := f.location.y - c.location.y) hδ h0 (by nlinarith [hf.1]) h1
    have e2 := norm2_triangle (by linarith) hδ e1 hc.1
    have : δ + r + δ = r + 2 * δ := by ring
    rw [this] at e2
    refine le_trans (le_of_eq ?_) e2
    ring
  · refine absurd ?_ (not_le.2 ha)
    have e1 := abs_sub_le o.radius f.radius o'.radius
    have e2 := abs_sub_le f.radius c.radius o'.radius
    have e3 := hf.2
    have e4 := hc.2
    rw [abs_sub_comm f.radius] at e3
    linarith

theorem Spec.Disc.Apart.symm {r d : ℝ} {o o' : Disc} (h : Disc.Apart r d o o') : Disc.Apart r d o' o := by
  rcases h with h | h
  · left; refine h.trans_eq ?_; ring
  · right; rwa [abs_sub_comm]

instance discApart_symm (r d : ℝ) : Std.Symm (Disc.Apart r d) := ⟨fun _ _ h => Disc.Apart.symm h⟩

theorem shown_confidence {g : List Center} (hne : g ≠ []) {o : Disc} {δ ε : ℝ} (hδ : 0 ≤ δ)
    (hc : ∀ c ∈ g, ∃ wt, c.confidence = .fin wt ∧ 0 < wt) (hs : ∀ c ∈ g, o.ShownBy δ ε c) :
    o.Reported δ ε (averageGroup g) := by
  classical
  let wt : Center → ℝ := fun c => if h : ∃ wt, c.confidence = .fin wt ∧ 0 < wt then h.choose else 0
  have hwt : ∀ c ∈ g, c.confidence = .fin (wt c) ∧ 0 < wt c := by
    intro c hcm
    have h := hc c hcm
    simp only [wt, dif_pos h]
    exact h.choose_spec
  have hpos : ∀ c ∈ g, 0 < wt c := fun c hc => (hwt c hc).2
  refine ⟨wmean wt (·.location.x) g, wmean wt (·.location.y) g, wmean wt (·.radius) g, ?_, ?_, ?_⟩
  · rw [averageGroup_fin wt g hne hwt, mul_comm]
  · exact wmean_in_disc wt g hne hpos _ _ δ hδ (fun c hc => (hs c hc).1)
  · have := wmean_bounds wt (·.radius) g hne hpos (o.radius - ε) (o.radius + ε) (by
      intro c hc
      have := abs_le.1 (hs c hc).2
      constructor <;> linarith)
    rw [abs_le]
    constructor <;> linarith

instance : Inhabited Disc := ⟨⟨⟨0, 0⟩, 0⟩⟩

open Classical in
/-- **C218.** If every detection shows one of the circles, detections of one circle agree within the tolerances of the
detector, and the circles are too far apart for detections of two to agree, then the key points are, in some order, one
for each circle that is shown often enough (at least once), and each is as close to its circle as the detections are. -/
theorem C218_once (p : DetectorParams) (all : List (List Center)) (discs : List Disc) (δ ε : ℝ) (hδ : 0 ≤ δ)
    (hε : 0 ≤ ε) (hr : 2 * δ ≤ p.circleInclusionRadius) (hd : 2 * ε ≤ p.maxRadiusDiff)
    (hsep : discs.Pairwise (Disc.Apart (p.circleInclusionRadius + 2 * δ) (p.maxRadiusDiff + 2 * ε)))
    (hshow : ∀ l ∈ all, ∀ c ∈ l, ∃ o ∈ discs, o.ShownBy δ ε c)
    (hconf : ∀ l ∈ all, ∀ c ∈ l, ∃ wt, c.confidence = .fin wt ∧ 0 < wt) :
    ∃ found : List Disc,
      found.Perm (discs.filter fun o => 1 ≤ o.times δ ε all ∧ p.minRepeatability ≤ o.times δ ε all) ∧
      List.Forall₂ (Disc.Reported δ ε) found (detectKeyPoints all p) := by
  have hnear : ∀ o ∈ discs, ∀ o' ∈ discs, ∀ f c, o.ShownBy δ ε f → o'.ShownBy δ ε c →
      SameCircle p.circleInclusionRadius p.maxRadiusDiff f c → o = o' := by
    intro o ho o' ho' f c hf hc hs
    by_contra hne
    exact same_of_near hδ hf hc hs (hsep.forall ho ho' hne)
  have hnd : discs.Nodup := by
    refine hsep.imp ?_
    rintro o o' h rfl
    rcases h with h | h
    · simp only [sub_self] at h
      nlinarith [sq_nonneg (p.circleInclusionRadius + 2 * δ)]
    · rw [sub_self, abs_zero] at h
      linarith
  obtain ⟨own, h1, h2, h3⟩ := grouping_classes (C72_grouping p all) (fun o c => o.ShownBy δ ε c) discs
    (by
      intro c hc
      obtain ⟨l, hl, hcl⟩ := List.mem_flatten.1 hc
      exact hshow l hl c hcl)
    (fun o _ f _ c _ hf hc => near_of_shown hr hd hδ hf hc)
    (fun o ho o' ho' f _ c _ hf hc hs => hnear o ho o' ho' f c hf hc hs)
  have hlen : ∀ g ∈ groupCenters (nearCenter p) all, g.length = (own g).times δ ε all := by
    intro g hg
    exact congrArg List.length (h1 g hg).2
  refine ⟨((groupCenters (nearCenter p) all).filter fun g => p.minRepeatability ≤ g.length).map own, ?_, ?_⟩
  · rw [List.perm_ext_iff_of_nodup (h2.sublist (List.filter_sublist.map own)) (hnd.filter _)]
    intro o
    simp only [List.mem_map, List.mem_filter, decide_eq_true_eq]
    constructor
    · rintro ⟨g, ⟨hg, hm⟩, rfl⟩
      rw [hlen g hg] at hm
      refine ⟨(h1 g hg).1, ?_, hm⟩
      rw [← hlen g hg]
      exact List.length_pos_iff.2 ((C72_grouping p all).nonempty g hg)
    · rintro ⟨ho, hone, hm⟩
      obtain ⟨c, hc⟩ := List.exists_mem_of_length_pos hone
      obtain ⟨hca, hoc⟩ := List.mem_filter.1 hc
      obtain ⟨g, hg, rfl⟩ := h3 o ho ⟨c, hca, by simpa using hoc⟩
      exact ⟨g, ⟨hg, by rw [hlen g hg]; exact hm⟩, rfl⟩
  · unfold detectKeyPoints
    rw [List.forall₂_map_left_iff, List.forall₂_map_right_iff, List.forall₂_same]
    intro g hg
    have hg := (List.mem_filter.1 hg).1
    have hs : ∀ c ∈ g, (own g).ShownBy δ ε c := by
      intro c hc
      rw [(h1 g hg).2] at hc
      simpa using (List.mem_filter.1 hc).2
    refine shown_confidence ((C72_grouping p all).nonempty g hg) hδ ?_ hs
    intro c hc
    obtain ⟨l, hl, hcl⟩ := List.mem_flatten.1 (((C72_grouping p all).order g hg).subset hc)
    exact hconf l hl c hcl

theorem times_pos_of {δ ε : ℝ} {all : List (List Center)} {o : Disc} {m : Nat} (ls : List (List Center))
    (hls : ls.Sublist all) (hm : m ≤ ls.length) (h : ∀ l ∈ ls, ∃ c ∈ l, o.ShownBy δ ε c) : m ≤ o.times δ ε all := by
  classical
  refine hm.trans ?_
  unfold Disc.times
  have hsub : (ls.flatten.filter fun c => decide (o.ShownBy δ ε c)).length
      ≤ (all.flatten.filter fun c => decide (o.ShownBy δ ε c)).length := by
    clear h hm
    induction hls with
    | slnil => simp
    | cons a _ ih => simp only [List.flatten_cons, List.filter_append, List.length_append]; omega
    | cons_cons a _ ih => simp only [List.flatten_cons, List.filter_append, List.length_append]; omega
  refine le_trans ?_ hsub
  clear hsub hls hm
  induction ls with
  | nil => simp
  | cons a ls ih =>
    simp only [List.flatten_cons, List.filter_append, List.length_append, List.length_cons]
    have := ih (fun l hl => h l (List.mem_cons_of_mem _ hl))
    obtain ⟨c, hc, ho⟩ := h a (by simp)
    have : 0 < (a.filter fun c => decide (o.ShownBy δ ε c)).length :=
      List.length_pos_of_mem (List.mem_filter.2 ⟨hc, by simpa using ho⟩)
    omega

open Classical in
/-- **C218.** The detector reports as many key points as there are circles, one close to each, if besides each circle is
detected in at least the required number of binarised images (at least one). -/
theorem C218_all (w : ImageOps) (p : DetectorParams) (all : List (List Center)) (kps : List KeyPointF)
    (hall : applyThresholds w p = .ok all) (hrun : detect w p = .ok kps)
    (discs : List Disc) (δ ε : ℝ) (hδ : 0 ≤ δ)
    (hε : 0 ≤ ε) (hr : 2 * δ ≤ p.circleInclusionRadius) (hd : 2 * ε ≤ p.maxRadiusDiff)
    (hsep : discs.Pairwise (Disc.Apart (p.circleInclusionRadius + 2 * δ) (p.maxRadiusDiff + 2 * ε)))
    (hshow : ∀ l ∈ all, ∀ c ∈ l, ∃ o ∈ discs, o.ShownBy δ ε c)
    (hconf : ∀ l ∈ all, ∀ c ∈ l, ∃ wt, c.confidence = .fin wt ∧ 0 < wt)
    (hrep : ∀ o ∈ discs, ∃ ls : List (List Center), ls.Sublist all ∧ ls ≠ [] ∧ p.minRepeatability ≤ ls.length ∧
      ∀ l ∈ ls, ∃ c ∈ l, o.ShownBy δ ε c) :
    kps.length = discs.length ∧ ∃ found : List Disc, found.Perm discs ∧ List.Forall₂ (Disc.Reported δ ε) found kps := by
  have hk : kps = detectKeyPoints all p := by
    unfold detect at hrun
    rw [hall] at hrun
    exact (Res.ok.inj hrun).symm
  subst hk
  obtain ⟨found, h1, h2⟩ := C218_once p all discs δ ε hδ hε hr hd hsep hshow hconf
  have hf : (discs.filter fun o => 1 ≤ o.times δ ε all ∧ p.minRepeatability ≤ o.times δ ε all) = discs := by
    rw [List.filter_eq_self]
    intro o ho
    obtain ⟨ls, hls, hne, hm, hl⟩ := hrep o ho
    simp only [decide_eq_true_eq]
    exact ⟨times_pos_of ls hls (List.length_pos_iff.2 hne) hl, times_pos_of ls hls hm hl⟩
  rw [hf] at h1
  exact ⟨h2.length_eq.symm.trans h1.length_eq, found, h1, h2⟩

open Classical in
/-- **C218.** Which circles are reported does not depend on the order of the thresholds or of the detections. -/
theorem C218_order (p : DetectorParams) (all all' : List (List Center)) (hperm : all.flatten.Perm all'.flatten)
    (discs : List Disc) (δ ε : ℝ) (hδ : 0 ≤ δ)
    (hε : 0 ≤ ε) (hr : 2 * δ ≤ p.circleInclusionRadius) (hd : 2 * ε ≤ p.maxRadiusDiff)
    (hsep : discs.Pairwise (Disc.Apart (p.circleInclusionRadius + 2 * δ) (p.maxRadiusDiff + 2 * ε)))
    (hshow : ∀ c ∈ all.flatten, ∃ o ∈ discs, o.ShownBy δ ε c)
    (hconf : ∀ c ∈ all.flatten, ∃ wt, c.confidence = .fin wt ∧ 0 < wt) :
    ∃ found found' : List Disc, found.Perm found' ∧ List.Forall₂ (Disc.Reported δ ε) found (detectKeyPoints all p) ∧
      List.Forall₂ (Disc.Reported δ ε) found' (detectKeyPoints all' p) := by
  obtain ⟨found, h1, h2⟩ := C218_once p all discs δ ε hδ hε hr hd hsep
    (fun l hl c hc => hshow c (List.mem_flatten.2 ⟨l, hl, hc⟩)) (fun l hl c hc => hconf c (List.mem_flatten.2 ⟨l, hl, hc⟩))
  obtain ⟨found', h1', h2'⟩ := C218_once p all' discs δ ε hδ hε hr hd hsep
    (fun l hl c hc => hshow c (hperm.mem_iff.2 (List.mem_flatten.2 ⟨l, hl, hc⟩)))
    (fun l hl c hc => hconf c (hperm.mem_iff.2 (List.mem_flatten.2 ⟨l, hl, hc⟩)))
  have ht : ∀ o : Disc, o.times δ ε all = o.times δ ε all' := fun o => (hperm.filter _).length_eq
  simp only [ht] at h1
  exact ⟨found, found', h1.trans h1'.symm, h2, h2'⟩

/-- Two circles of radius 10, forty pixels apart, each detected at two thresholds with an error of one pixel. -/
def twoDiscs : List Disc := [⟨⟨0, 0⟩, 10⟩, ⟨⟨40, 0⟩, 10⟩]

def twoDiscsSeen : List (List Center) :=
  [[⟨⟨1, 0⟩, 10, .fin 60⟩, ⟨⟨40, 1⟩, 9, .fin 70⟩], [⟨⟨39, 0⟩, 10, .fin 80⟩, ⟨⟨0, 0⟩, 11, .fin 90⟩]]

example : twoDiscs.Pairwise (Disc.Apart (5 + 2 * 1) (5 + 2 * 1)) ∧
    (∀ l ∈ twoDiscsSeen, ∀ c ∈ l, ∃ o ∈ twoDiscs, o.ShownBy 1 1 c) ∧
    (∀ l ∈ twoDiscsSeen, ∀ c ∈ l, ∃ wt, c.confidence = .fin wt ∧ 0 < wt) ∧
    (∀ o ∈ twoDiscs, ∃ ls : List (List Center), ls.Sublist twoDiscsSeen ∧ ls ≠ [] ∧ 2 ≤ ls.length ∧
      ∀ l ∈ ls, ∃ c ∈ l, o.ShownBy 1 1 c) := by
  refine ⟨?_, ?_, ?_, ?_⟩
  · simp only [twoDiscs, List.pairwise_cons, List.mem_singleton, forall_eq, List.not_mem_nil, false_imp_iff,
      implies_true, List.Pairwise.nil, and_true, Disc.Apart]
    norm_num
  · simp only [twoDiscsSeen, twoDiscs, List.forall_mem_cons, List.not_mem_nil, false_imp_iff, implies_true, and_true,
      List.exists_mem_cons_iff, Disc.ShownBy]
    norm_num [abs_le]
  · simp only [twoDiscsSeen, List.forall_mem_cons, List.not_mem_nil, false_imp_iff, implies_true, and_true]
    refine ⟨⟨⟨60, rfl, ?_⟩, ⟨70, rfl, ?_⟩⟩, ⟨80, rfl, ?_⟩, ⟨90, rfl, ?_⟩⟩ <;> norm_num
  · intro o ho
    refine ⟨twoDiscsSeen, List.Sublist.refl _, by simp [twoDiscsSeen], by simp [twoDiscsSeen], ?_⟩
    simp only [twoDiscs, List.mem_cons, List.not_mem_nil, or_false] at ho
    rcases ho with rfl | rfl <;>
    simp only [twoDiscsSeen, List.forall_mem_cons, List.not_mem_nil, false_imp_iff, implies_true, and_true,
      List.exists_mem_cons_iff, Disc.ShownBy] <;> norm_num [abs_le]

end RCT
