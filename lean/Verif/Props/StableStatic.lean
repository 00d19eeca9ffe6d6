import Verif.Lemmas.StableStatic
import Verif.Props.Stable
import Verif.Props.Links

/-!
# C211: little pixel noise leaves several static cameras close to the truth

The theorems hold for all runs of all solvers. The noise is bounded, and the result either has a small final cost or fits the images
at least as well as the truth does.
-/

namespace RCT

open Spec

/-- Noise that allows errors in the image of at most `r`, for fits that are good or at least as good as the truth. -/
theorem fit_bound {r : ℝ} (hr : 0 < r) (n : Nat) : ∃ d : ℝ, 0 < d ∧ ∀ {α : Type} (l : List α) (g m t : α → V2), l.length = n →
    ((∃ F, meanCost (l.flatMap fun a => diff2 (g a) (m a)) = some F ∧ F ≤ d) ∨
      Spec.sumSq (l.flatMap fun a => diff2 (g a) (m a)) ≤ Spec.sumSq (l.flatMap fun a => diff2 (t a) (m a))) →
    PixelNoise d l m t → ∀ a ∈ l, |(g a).x - (t a).x| ≤ r ∧ |(g a).y - (t a).y| ≤ r := by
  obtain ⟨d, hd, h1⟩ := pixel_bound hr n
  obtain ⟨d', hd', hle, h2⟩ := best_bound hd
  refine ⟨d', hd', fun {α} l g m t hl hfit hn a ha => ?_⟩
  have hn' : PixelNoise d l m t := fun k hk => ⟨(hn k hk).1.trans hle, (hn k hk).2.trans hle⟩
  rcases hfit with ⟨F, hF, hFd⟩ | hfit
  · exact h1 l g m t F hl hF (hFd.trans hle) hn' a ha
  · obtain ⟨F, hF⟩ : ∃ F, meanCost (l.flatMap fun a => diff2 (g a) (m a)) = some F := by
      rw [meanCost, if_neg]
      · exact ⟨_, rfl⟩
      · intro h0
        have := List.flatMap_eq_nil_iff.1 h0 a ha
        simp [diff2] at this
    exact h1 l g m t F hl hF (h2 l g m t F hF hn hfit) hn' a ha

theorem shows_length {obs : List (List (List Corr2))} {pts : Nat → Nat → List V3} (h : Shows obs pts) (c i : Nat) :
    (featuresOf obs c i).length = (pts c i).length := by
  rw [← h c i, List.length_map, featuresOf, List.length_map]

theorem byCamera_length {obs : List (List (List Corr2))} {pts : Nat → Nat → List V3} (h : Shows obs pts) (cams : Nat) (images : Nat → Nat) :
    (byCamera obs cams images).length = ((List.range cams).flatMap fun c => (List.range (images c)).flatMap fun i => pts c i).length := by
  simp only [byCamera, List.length_flatMap, shows_length h]

theorem byImage_length {obs : List (List (List Corr2))} {pts : Nat → Nat → List V3} (h : Shows obs pts) (cams images : Nat) :
    (byImage obs cams images).length = ((List.range images).flatMap fun i => (List.range cams).flatMap fun c => pts c i).length := by
  simp only [byImage, List.length_flatMap, shows_length h]

/-- From bounds for all features to bounds for the points of one image. -/
theorem nearView_of {r : ℝ} {intr : List Intr} {cams cams' : List Iso} {tgt tgt' : Nat → Nat → Iso} {obs : List (List (List Corr2))}
    {pts : Nat → Nat → List V3} (hobs : Shows obs pts) {fs : List Feature} {c i : Nat}
    (hmem : ∀ k ∈ (obs.getD c []).getD i [], (⟨c, i, k⟩ : Feature) ∈ fs)
    (hz : ∀ f ∈ fs, 0 < staticDepth (cams.getD f.cam 1) (tgt f.cam f.img) f.corr)
    (h : ∀ f ∈ fs, |(truePixel intr cams tgt f).x - (truePixel intr cams' tgt' f).x| ≤ r ∧
      |(truePixel intr cams tgt f).y - (truePixel intr cams' tgt' f).y| ≤ r) :
    NearView r (intr.getD c ⟨0, 0, 0, 0⟩) ((cams.getD c 1).inv * tgt c i) ((cams'.getD c 1).inv * tgt' c i) (pts c i) := by
  intro q hq
  rw [← hobs c i] at hq
  obtain ⟨k, hk, rfl⟩ := List.mem_map.1 hq
  have h1 := hz _ (hmem k hk)
  have h2 := h _ (hmem k hk)
  simp only [staticDepth, truePixel] at h1 h2
  exact ⟨h1, h2⟩

theorem wrist_rigid {wrist : List (List Iso)} (hw : ∀ wp ∈ wrist, ∀ w ∈ wp, Representable w) (c i : Nat) :
    ((wrist.getD c []).getD i 1).IsRigid := by
  refine rigid_getD (fun w hw' => ?_) i
  rw [List.getD_eq_getElem?_getD] at hw'
  cases hy : wrist[c]? with
  | none => rw [hy] at hw'; simp at hw'
  | some wp =>
    rw [hy] at hw'
    exact (hw wp (List.mem_of_getElem? hy) w hw').1

/-- All views of all cameras are within `r` of the true ones. -/
def NearAll (r : ℝ) (intr : List Intr) (n : Nat) (images : Nat → Nat) (pts : Nat → Nat → List V3) (S S' : Nat → Nat → Iso) : Prop :=
  ∀ c < n, ∀ i < images c, NearView r (intr.getD c ⟨0, 0, 0, 0⟩) (S c i) (S' c i) (pts c i)

theorem NearAll.mono {r r' : ℝ} {intr : List Intr} {n : Nat} {images : Nat → Nat} {pts : Nat → Nat → List V3} {S S' : Nat → Nat → Iso}
    (h : NearAll r intr n images pts S S') (hr : r ≤ r') : NearAll r' intr n images pts S S' :=
  fun c hc i hi => (h c hc i hi).mono hr

/-- The geometry behind `C211_multi`. -/
theorem static_stable {intr : List Intr} {W : Nat → Nat → Iso} {images : Nat → Nat} {pts : Nat → Nat → List V3} {n : Nat} {T : Nat → Iso} {Y : Iso}
    (rW : ∀ c i, (W c i).IsRigid) (rT : ∀ c, (T c).IsRigid) (rY : Y.IsRigid)
    (hz : ∀ c < n, ∀ i < images c, ∀ q ∈ pts c i, 0 < (((T c).inv * (W c i * Y)).apply q).z)
    {x a b o : Nat} (hx : x < n) (hthree : ∀ i ∈ [a, b, o], i < images x ∧
      SeenWell (intr.getD x ⟨0, 0, 0, 0⟩) ((T x).inv * (W x i * Y)) (pts x i))
    (hax : AxesDiffer (wristMotion (W x a) (W x o)).R (wristMotion (W x b) (W x o)).R)
    (hone : ∀ c < n, ∃ i < images c, SeenWell (intr.getD c ⟨0, 0, 0, 0⟩) ((T c).inv * (W c i * Y)) (pts c i)) {e : ℝ} (he : 0 < e) :
    ∃ r : ℝ, 0 < r ∧ ∀ (A : Nat → Iso) (B : Iso), (∀ c, (A c).IsRigid) → B.IsRigid →
      NearAll r intr n images pts (fun c i => (A c).inv * (W c i * B)) (fun c i => (T c).inv * (W c i * Y)) →
      Close e B Y ∧ ∀ c < n, Close e (A c) (T c) := by
  obtain ⟨k, hk, hlip⟩ := handEye_lipschitz (rT x) rY (rW x a) (rW x b) (rW x o) hax
  have rS : ∀ c i, ((T c).inv * (W c i * Y)).IsRigid := fun c i => (rT c).inv.mul ((rW c i).mul rY)
  have hB : ∀ {e : ℝ}, 0 < e → ∃ r : ℝ, 0 < r ∧ ∀ (A : Nat → Iso) (B : Iso), (∀ c, (A c).IsRigid) → B.IsRigid →
      NearAll r intr n images pts (fun c i => (A c).inv * (W c i * B)) (fun c i => (T c).inv * (W c i * Y)) → Close e B Y := by
    intro e he
    have hv : ∀ i ∈ [a, b, o], ∃ r : ℝ, 0 < r ∧ ∀ S : Iso, S.IsRigid →
        NearView r (intr.getD x ⟨0, 0, 0, 0⟩) S ((T x).inv * (W x i * Y)) (pts x i) → Close (e / k) S ((T x).inv * (W x i * Y)) :=
      fun i hi => view_stable (rS x i) (hthree i hi).2 (hz x hx i (hthree i hi).1) (div_pos he hk)
    obtain ⟨ra, ha0, ha⟩ := hv a (by simp)
    obtain ⟨rb, hb0, hb⟩ := hv b (by simp)
    obtain ⟨ro, ho0, ho⟩ := hv o (by simp)
    refine ⟨min ra (min rb ro), lt_min ha0 (lt_min hb0 ho0), fun A B hA hB h => ?_⟩
    have hc : ∀ C ∈ [W x a, W x b, W x o], Close (e / k) ((A x).inv * (C * B)) ((T x).inv * (C * Y)) := by
      intro C hC
      simp only [List.mem_cons, List.not_mem_nil, or_false] at hC
      rcases hC with rfl | rfl | rfl
      · exact ha _ ((hA x).inv.mul ((rW x a).mul hB)) ((h x hx a (hthree a (by simp)).1).mono (min_le_left _ _))
      · exact hb _ ((hA x).inv.mul ((rW x b).mul hB))
          ((h x hx b (hthree b (by simp)).1).mono ((min_le_right _ _).trans (min_le_left _ _)))
      · exact ho _ ((hA x).inv.mul ((rW x o).mul hB))
          ((h x hx o (hthree o (by simp)).1).mono ((min_le_right _ _).trans (min_le_right _ _)))
    have := (hlip (A x) B (e / k) (hA x) hB hc).2
    rwa [mul_div_cancel₀ _ hk.ne'] at this
  obtain ⟨r0, hr0, h0⟩ := hB he
  obtain ⟨r1, hr1, h1⟩ := finite_min (P := fun c r => ∀ (A : Nat → Iso) (B : Iso), (∀ c, (A c).IsRigid) → B.IsRigid →
      NearAll r intr n images pts (fun c i => (A c).inv * (W c i * B)) (fun c i => (T c).inv * (W c i * Y)) → Close e (A c) (T c))
    (fun c r r' h hr A B hA hB hn => h A B hA hB (hn.mono hr)) n (fun c hc => by
      obtain ⟨i, hi, hw⟩ := hone c hc
      obtain ⟨m, hm, hcam⟩ := camera_lipschitz (rT c) ((rW c i).mul rY)
      obtain ⟨r2, hr2, h2⟩ := hB (div_pos he hm)
      obtain ⟨r3, hr3, h3⟩ := view_stable (rS c i) hw (hz c hc i hi) (div_pos he hm)
      refine ⟨min r2 r3, lt_min hr2 hr3, fun A B hA hB hn => ?_⟩
      have := hcam (A c) (W c i * B) (e / m) (hA c) ((rW c i).mul hB)
        (h3 _ ((hA c).inv.mul ((rW c i).mul hB)) ((hn c hc i hi).mono (min_le_right _ _)))
        ((h2 A B hA hB (hn.mono (min_le_left _ _))).mul_left (rW c i))
      rwa [mul_div_cancel₀ _ hm.ne'] at this)
  exact ⟨min r0 r1, lt_min hr0 hr1, fun A B hA hB hn => ⟨h0 A B hA hB (hn.mono (min_le_left _ _)),
    fun c hc => h1 c hc A B hA hB (hn.mono (min_le_right _ _))⟩⟩

/-- Cameras and target mount. Camera `x` sees the target well in three images between which the wrist turned about two different axes,
every camera sees it well in one image. Then for every wanted accuracy there is a bound on pixel noise and final cost that guarantees
it for all reported poses; the bound on the noise suffices if the result fits the images at least as well as the true poses do. -/
theorem C211_multi (intr : List Intr) (wrist : List (List Iso)) (pts : Nat → Nat → List V3) (T : List Iso) (Y : Iso)
    (hw : ∀ wp ∈ wrist, ∀ w ∈ wp, Representable w) (hT : ∀ t ∈ T, RigidMotion t) (hY : RigidMotion Y)
    (hz : ∀ c < T.length, ∀ i < (wrist.getD c []).length, ∀ q ∈ pts c i,
      0 < (((T.getD c 1).inv * ((wrist.getD c []).getD i 1 * Y)).apply q).z)
    (x a b o : Nat) (hx : x < T.length) (hthree : ∀ i ∈ [a, b, o], i < (wrist.getD x []).length ∧
      SeenWell (intr.getD x ⟨0, 0, 0, 0⟩) ((T.getD x 1).inv * ((wrist.getD x []).getD i 1 * Y)) (pts x i))
    (hax : AxesDiffer (wristMotion ((wrist.getD x []).getD a 1) ((wrist.getD x []).getD o 1)).R
      (wristMotion ((wrist.getD x []).getD b 1) ((wrist.getD x []).getD o 1)).R)
    (hone : ∀ c < T.length, ∃ i < (wrist.getD c []).length,
      SeenWell (intr.getD c ⟨0, 0, 0, 0⟩) ((T.getD c 1).inv * ((wrist.getD c []).getD i 1 * Y)) (pts c i)) (e : ℝ) (he : 0 < e) :
    ∃ r : ℝ, 0 < r ∧ ∀ (s : Ceres Pose6) (p : MsProblem) (res : MsResult), multiStatic s p = .ok res → p.intr = intr →
      p.wristPoses = wrist → p.baseToCameraGuess.length = T.length → Shows p.observations pts →
      (∀ c ∈ res.baseToCamera, RigidMotion c) → RigidMotion res.wristToTarget →
      ∀ fs, fs = byCamera p.observations T.length (fun c => (wrist.getD c []).length) →
      PixelNoise r fs (fun f => f.corr.inImage) (truePixel intr T fun c i => (wrist.getD c []).getD i 1 * Y) →
      (∀ f ∈ fs, 0 < staticDepth (res.baseToCamera.getD f.cam 1) ((wrist.getD f.cam []).getD f.img 1 * res.wristToTarget) f.corr) →
      ((∃ F, res.finalCost = some F ∧ F ≤ r) ∨
        Spec.sumSq (staticErrors intr res.baseToCamera (fun c i => (wrist.getD c []).getD i 1 * res.wristToTarget) fs) ≤
          Spec.sumSq (staticErrors intr T (fun c i => (wrist.getD c []).getD i 1 * Y) fs)) →
      Close e res.wristToTarget Y ∧ ∀ c < T.length, Close e (res.baseToCamera.getD c 1) (T.getD c 1) := by
  have rW := wrist_rigid hw
  have rT := rigid_getD hT
  have rY := (rigid_iff _).2 hY
  obtain ⟨r, hr, hst⟩ := static_stable (W := fun c i => (wrist.getD c []).getD i 1) (images := fun c => (wrist.getD c []).length)
    (T := fun c => T.getD c 1) rW rT rY hz hx hthree hax hone he
  obtain ⟨d, hd, hfit⟩ := fit_bound hr ((List.range T.length).flatMap fun c => (List.range (wrist.getD c []).length).flatMap fun i => pts c i).length
  refine ⟨d, hd, fun s p res h hi hwr hlen hobs hr1 hr2 fs hfs hn hz' hgood => ?_⟩
  have hfin := C126_multi_final s p res h (by rw [hwr]; exact hw) hr1 (by
    rw [hwr, hlen, ← hfs]; exact fun f hf => (hz' f hf).ne')
  rw [hwr, hlen, hi, ← hfs] at hfin
  rw [hfin] at hgood
  have key := hfit fs (truePixel intr res.baseToCamera fun c i => (wrist.getD c []).getD i 1 * res.wristToTarget) (fun f => f.corr.inImage)
    (truePixel intr T fun c i => (wrist.getD c []).getD i 1 * Y) (by rw [hfs, byCamera_length hobs]) hgood hn
  refine hst (fun c => res.baseToCamera.getD c 1) res.wristToTarget (rigid_getD hr1) ((rigid_iff _).2 hr2) fun c hc i hi' => ?_
  exact nearView_of (intr := intr) (cams := res.baseToCamera) (cams' := T) (tgt := fun c i => (wrist.getD c []).getD i 1 * res.wristToTarget)
    (tgt' := fun c i => (wrist.getD c []).getD i 1 * Y) hobs (fun k hk => by rw [hfs]; exact byCamera_mem hc hi' hk) hz' key

theorem map_mul_getD {l : List Iso} {n : Nat} (h : n < l.length) (D : Iso) : (l.map fun g => D * g).getD n 1 = D * l.getD n 1 := by
  rw [List.getD_eq_getElem?_getD, List.getD_eq_getElem?_getD, List.getElem?_map, List.getElem?_eq_getElem h]
  rfl

/-- A common correction of all cameras. The true poses of the cameras are the given ones `G` moved by `B`. Three images, of any of the
cameras, in which the target is seen well show two turns of the wrist about different axes. Then for every wanted accuracy there is a
bound on pixel noise and final cost that guarantees it for all reported poses. -/
theorem C211_wrist_only (intr : List Intr) (wrist : List Iso) (pts : Nat → Nat → List V3) (G : List Iso) (B Y : Iso)
    (hw : ∀ w ∈ wrist, Representable w) (hG : ∀ g ∈ G, Representable g) (hB : RigidMotion B) (hY : RigidMotion Y)
    (hz : ∀ c < G.length, ∀ i < wrist.length, ∀ q ∈ pts c i,
      0 < (((B * G.getD c 1).inv * (wrist.getD i 1 * Y)).apply q).z)
    (xa a xb b xo o : Nat) (hthree : ∀ v ∈ [(xa, a), (xb, b), (xo, o)], v.1 < G.length ∧ v.2 < wrist.length ∧
      SeenWell (intr.getD v.1 ⟨0, 0, 0, 0⟩) ((B * G.getD v.1 1).inv * (wrist.getD v.2 1 * Y)) (pts v.1 v.2))
    (hax : AxesDiffer (wristMotion (wrist.getD a 1) (wrist.getD o 1)).R (wristMotion (wrist.getD b 1) (wrist.getD o 1)).R)
    (e : ℝ) (he : 0 < e) :
    ∃ r : ℝ, 0 < r ∧ ∀ (s : Ceres Pose6) (p : WoProblem) (res : WoResult), wristOnly s p = .ok res → p.intr = intr →
      p.wristPoses = wrist → p.baseToCameraGuess = G → Shows p.observations pts →
      (∀ c ∈ res.baseToCamera, RigidMotion c) → RigidMotion res.wristToTarget →
      ∀ fs, fs = byCamera p.observations G.length (fun _ => wrist.length) →
      PixelNoise r fs (fun f => f.corr.inImage) (truePixel intr (G.map (B * ·)) fun _ i => wrist.getD i 1 * Y) →
      (∀ f ∈ fs, 0 < staticDepth (res.baseToCamera.getD f.cam 1) (wrist.getD f.img 1 * res.wristToTarget) f.corr) →
      ((∃ F, res.finalCost = some F ∧ F ≤ r) ∨
        Spec.sumSq (staticErrors intr res.baseToCamera (fun _ i => wrist.getD i 1 * res.wristToTarget) fs) ≤
          Spec.sumSq (staticErrors intr (G.map (B * ·)) (fun _ i => wrist.getD i 1 * Y) fs)) →
      Close e res.wristToTarget Y ∧ ∀ c < G.length, Close e (res.baseToCamera.getD c 1) (B * G.getD c 1) := by
  have rW : ∀ i : Nat, (wrist.getD i 1).IsRigid := rigid_getD fun w hw' => (hw w hw').1
  have rG : ∀ c : Nat, (G.getD c 1).IsRigid := rigid_getD fun g hg => (hG g hg).1
  have rB := (rigid_iff _).2 hB
  have rY := (rigid_iff _).2 hY
  obtain ⟨k, hk, hlip⟩ := handEye_lipschitz rB rY (rW a) (rW b) (rW o) hax
  obtain ⟨m, hm1, hm⟩ := finite_max (fun c => 1 + (G.getD c 1).t.norm) G.length
  have hv : ∀ v ∈ [(xa, a), (xb, b), (xo, o)], ∃ r : ℝ, 0 < r ∧ ∀ S : Iso, S.IsRigid →
      NearView r (intr.getD v.1 ⟨0, 0, 0, 0⟩) S ((B * G.getD v.1 1).inv * (wrist.getD v.2 1 * Y)) (pts v.1 v.2) →
      Close (e / (k * m)) S ((B * G.getD v.1 1).inv * (wrist.getD v.2 1 * Y)) := fun v hv =>
    view_stable ((rB.mul (rG _)).inv.mul ((rW _).mul rY)) (hthree v hv).2.2 (hz _ (hthree v hv).1 _ (hthree v hv).2.1)
      (div_pos he (mul_pos hk (by linarith)))
  obtain ⟨ra, ha0, ha⟩ := hv (xa, a) (by simp)
  obtain ⟨rb, hb0, hb⟩ := hv (xb, b) (by simp)
  obtain ⟨ro, ho0, ho⟩ := hv (xo, o) (by simp)
  obtain ⟨d, hd, hfit⟩ := fit_bound (lt_min ha0 (lt_min hb0 ho0))
    ((List.range G.length).flatMap fun c => (List.range wrist.length).flatMap fun i => pts c i).length
  refine ⟨d, hd, fun s p res h hi hwr hg hobs hr1 hr2 fs hfs hn hz' hgood => ?_⟩
  have hfin := C126_wrist_only_final s p res h (by rw [hwr]; exact hw) (by rw [hg]; exact hG) hr1 (by
    rw [hwr, hg, ← hfs]; exact fun f hf => (hz' f hf).ne')
  rw [hwr, hg, hi, ← hfs] at hfin
  rw [hfin] at hgood
  have key := hfit fs (truePixel intr res.baseToCamera fun _ i => wrist.getD i 1 * res.wristToTarget) (fun f => f.corr.inImage)
    (truePixel intr (G.map (B * ·)) fun _ i => wrist.getD i 1 * Y) (by rw [hfs, byCamera_length hobs]) hgood hn
  obtain ⟨D, hD⟩ := wo_correction h
  rw [hg] at hD
  have rY' := (rigid_iff _).2 hr2
  have getR : ∀ c < G.length, res.baseToCamera.getD c 1 = D * G.getD c 1 := fun c hc => by rw [hD, map_mul_getD hc]
  have rD : D.IsRigid := by
    have h1 : (D * G.getD xa 1).IsRigid := by
      rw [← getR xa (hthree (xa, a) (by simp)).1]; exact rigid_getD hr1 xa
    have h2 := h1.mul (rG xa).inv
    rwa [Iso.mul_assoc, Iso.mul_inv (rG xa), Iso.mul_one] at h2
  have near : ∀ v ∈ [(xa, a), (xb, b), (xo, o)], NearView (min ra (min rb ro)) (intr.getD v.1 ⟨0, 0, 0, 0⟩)
      ((D * G.getD v.1 1).inv * (wrist.getD v.2 1 * res.wristToTarget)) ((B * G.getD v.1 1).inv * (wrist.getD v.2 1 * Y))
      (pts v.1 v.2) := by
    intro v hv
    obtain ⟨h1, h2, -⟩ := hthree v hv
    have := nearView_of (intr := intr) (cams := res.baseToCamera) (cams' := G.map (B * ·))
      (tgt := fun _ i => wrist.getD i 1 * res.wristToTarget) (tgt' := fun _ i => wrist.getD i 1 * Y) hobs
      (c := v.1) (i := v.2) (fun k hk => by rw [hfs]; exact byCamera_mem h1 h2 hk) hz' key
    rwa [getR _ h1, map_mul_getD h1] at this
  have strip : ∀ (g w : Iso) (q : ℝ), g.IsRigid → Close q ((D * g).inv * (w * res.wristToTarget)) ((B * g).inv * (w * Y)) →
      Close q (D.inv * (w * res.wristToTarget)) (B.inv * (w * Y)) := by
    intro g w q hg' h'
    have := h'.mul_left hg'
    rwa [Iso.mul_inv_rev rD, Iso.mul_inv_rev rB, Iso.mul_assoc, Iso.mul_assoc, Iso.mul_inv_cancel_left hg', Iso.mul_inv_cancel_left hg'] at this
  have hc : ∀ C ∈ [wrist.getD a 1, wrist.getD b 1, wrist.getD o 1],
      Close (e / (k * m)) (D.inv * (C * res.wristToTarget)) (B.inv * (C * Y)) := by
    intro C hC
    simp only [List.mem_cons, List.not_mem_nil, or_false] at hC
    rcases hC with rfl | rfl | rfl
    · exact strip _ _ _ (rG xa) (ha _ ((rD.mul (rG xa)).inv.mul ((rW a).mul rY')) ((near (xa, a) (by simp)).mono (min_le_left _ _)))
    · exact strip _ _ _ (rG xb) (hb _ ((rD.mul (rG xb)).inv.mul ((rW b).mul rY'))
        ((near (xb, b) (by simp)).mono ((min_le_right _ _).trans (min_le_left _ _))))
    · exact strip _ _ _ (rG xo) (ho _ ((rD.mul (rG xo)).inv.mul ((rW o).mul rY'))
        ((near (xo, o) (by simp)).mono ((min_le_right _ _).trans (min_le_right _ _))))
  obtain ⟨h1, h2⟩ := hlip D res.wristToTarget _ rD rY' hc
  have hkm : k * (e / (k * m)) = e / m := by field_simp
  rw [hkm] at h1 h2
  have hm0 : 0 < m := by linarith
  refine ⟨h2.mono (div_le_self he.le hm1), fun c hc => ?_⟩
  rw [getR c hc]
  refine (h1.mul_right (rG c)).mono ?_
  calc (1 + (G.getD c 1).t.norm) * (e / m) ≤ m * (e / m) := mul_le_mul_of_nonneg_right (hm c hc) (by positivity)
    _ = e := mul_div_cancel₀ _ hm0.ne'

/-- The geometry behind `C211_camera_only`. -/
theorem linked_stable {intr : List Intr} {n images : Nat} {pts : Nat → Nat → List V3} {T H : Nat → Iso}
    (rT : ∀ c, (T c).IsRigid) (rH : ∀ i, (H i).IsRigid)
    (hz : ∀ c < n, ∀ i < images, ∀ q ∈ pts c i, 0 < (((T c).inv * H i).apply q).z) {c c' : Nat}
    (hlink : Linked (fun c i => c < n ∧ i < images ∧ SeenWell (intr.getD c ⟨0, 0, 0, 0⟩) ((T c).inv * H i) (pts c i)) c c')
    {e : ℝ} (he : 0 < e) :
    ∃ r : ℝ, 0 < r ∧ ∀ A G : Nat → Iso, (∀ c, (A c).IsRigid) → (∀ i, (G i).IsRigid) →
      NearAll r intr n (fun _ => images) pts (fun c i => (A c).inv * G i) (fun c i => (T c).inv * H i) →
      Close e ((A c).inv * A c') ((T c).inv * T c') := by
  induction hlink generalizing e with
  | refl =>
    refine ⟨1, one_pos, fun A G hA hG _ => ?_⟩
    rw [Iso.inv_mul (hA c), Iso.inv_mul (rT c)]
    exact (close_self 1).mono he.le
  | @tail y z _ hyz ih =>
    obtain ⟨i, ⟨hy, hi, hwy⟩, hz', -, hwz⟩ := hyz
    -- the pose of `z` in `y` comes from the poses of the target in both
    obtain ⟨u, hu⟩ : ∃ u, u = ((T z).inv * H i).inv.t.norm := ⟨_, rfl⟩
    obtain ⟨w, hw⟩ : ∃ w, w = ((T y).inv * T z).t.norm := ⟨_, rfl⟩
    have hu0 : 0 ≤ u := by rw [hu]; exact V3.norm_nonneg _
    have hw0 : 0 ≤ w := by rw [hw]; exact V3.norm_nonneg _
    obtain ⟨d, hd⟩ : ∃ d, d = e / (2 + w) := ⟨_, rfl⟩
    have hd0 : 0 < d := by rw [hd]; positivity
    obtain ⟨f, hf⟩ : ∃ f, f = d / ((2 + u) * (1 + u)) := ⟨_, rfl⟩
    have hf0 : 0 < f := by rw [hf]; positivity
    obtain ⟨r1, hr1, h1⟩ := ih hd0
    obtain ⟨r2, hr2, h2⟩ := view_stable ((rT y).inv.mul (rH i)) hwy (hz y hy i hi) hf0
    obtain ⟨r3, hr3, h3⟩ := view_stable ((rT z).inv.mul (rH i)) hwz (hz z hz' i hi) hf0
    refine ⟨min r1 (min r2 r3), lt_min hr1 (lt_min hr2 hr3), fun A G hA hG hn => ?_⟩
    have k1 := h1 A G hA hG (hn.mono (min_le_left _ _))
    have k2 := h2 _ ((hA y).inv.mul (hG i)) ((hn y hy i hi).mono ((min_le_right _ _).trans (min_le_left _ _)))
    have k3 := (h3 _ ((hA z).inv.mul (hG i)) ((hn z hz' i hi).mono ((min_le_right _ _).trans (min_le_right _ _)))).inverse
      ((hA z).inv.mul (hG i)) ((rT z).inv.mul (rH i))
    rw [← hu] at k3
    have k4 := Spec.Close.mul ((hA y).inv.mul (hG i)) ((rT z).inv.mul (rH i)).inv (k2.mono (e' := (1 + u) * f) (by nlinarith)) k3
    rw [← hu, Iso.mul_inv_rev (hA z).inv, Iso.inv_inv (hA z), Iso.mul_assoc, Iso.mul_inv_cancel_left (hG i), Iso.mul_inv_rev (rT z).inv,
      Iso.inv_inv (rT z), Iso.mul_assoc, Iso.mul_inv_cancel_left (rH i)] at k4
    have e1 : (2 + u) * ((1 + u) * f) = d := by rw [hf, ← mul_assoc, mul_div_cancel₀ _ (by positivity)]
    rw [e1] at k4
    have k5 := Spec.Close.mul ((hA c).inv.mul (hA y)) ((rT y).inv.mul (rT z)) k1 k4
    rw [← hw, Iso.mul_assoc, Iso.mul_inv_cancel_left (hA y), Iso.mul_assoc, Iso.mul_inv_cancel_left (rT y)] at k5
    have e2 : (2 + w) * d = e := by rw [hd, mul_div_cancel₀ _ (by positivity)]
    rwa [e2] at k5

/-- Cameras without a robot. If chains of common images in which the target is seen well lead from one camera to others, then for
every wanted accuracy there is a bound on pixel noise and final cost that guarantees it for the reported poses of these cameras
relative to each other. -/
theorem C211_camera_only (intr : List Intr) (pts : Nat → Nat → List V3) (T H : List Iso) (hT : ∀ t ∈ T, RigidMotion t)
    (hH : ∀ t ∈ H, RigidMotion t) (hne : H ≠ [])
    (hz : ∀ c < T.length, ∀ i < H.length, ∀ q ∈ pts c i, 0 < (((T.getD c 1).inv * H.getD i 1).apply q).z) (e : ℝ) (he : 0 < e) :
    ∃ r : ℝ, 0 < r ∧ ∀ (s : Ceres Pose6) (p : CoProblem) (res : CoResult), s.WF → cameraOnly s p = .ok res → p.intr = intr →
      p.baseToCameraGuess.length = T.length → p.baseToTargetGuess.length = H.length → Shows p.observations pts →
      (p.fixFirst = true → ∀ g, p.baseToCameraGuess[0]? = some g → Representable g) →
      (∀ c ∈ res.baseToCamera, RigidMotion c) → (∀ t ∈ res.baseToTarget, RigidMotion t) →
      ∀ fs, fs = byImage p.observations T.length H.length →
      PixelNoise r fs (fun f => f.corr.inImage) (truePixel intr T fun _ i => H.getD i 1) →
      (∀ f ∈ fs, 0 < staticDepth (res.baseToCamera.getD f.cam 1) (res.baseToTarget.getD f.img 1) f.corr) →
      ((∃ F, res.finalCost = some F ∧ F ≤ r) ∨
        Spec.sumSq (staticErrors intr res.baseToCamera (fun _ i => res.baseToTarget.getD i 1) fs) ≤
          Spec.sumSq (staticErrors intr T (fun _ i => H.getD i 1) fs)) →
      ∀ c < T.length, ∀ c' < T.length, Linked (fun c i => c < T.length ∧ i < H.length ∧
        SeenWell (intr.getD c ⟨0, 0, 0, 0⟩) ((T.getD c 1).inv * H.getD i 1) (pts c i)) c c' →
      Close e ((res.baseToCamera.getD c 1).inv * res.baseToCamera.getD c' 1) ((T.getD c 1).inv * T.getD c' 1) := by
  have rT : ∀ c : Nat, (T.getD c 1).IsRigid := rigid_getD hT
  have rH : ∀ c : Nat, (H.getD c 1).IsRigid := rigid_getD hH
  obtain ⟨r, hr, hst⟩ := finite_min (P := fun c r => ∀ c' < T.length, Linked (fun c i => c < T.length ∧ i < H.length ∧
        SeenWell (intr.getD c ⟨0, 0, 0, 0⟩) ((T.getD c 1).inv * H.getD i 1) (pts c i)) c c' →
      ∀ A G : Nat → Iso, (∀ c, (A c).IsRigid) → (∀ i, (G i).IsRigid) →
      NearAll r intr T.length (fun _ => H.length) pts (fun c i => (A c).inv * G i) (fun c i => (T.getD c 1).inv * H.getD i 1) →
      Close e ((A c).inv * A c') ((T.getD c 1).inv * T.getD c' 1))
    (fun c r r' h hr c' hc' hl A G hA hG hn => h c' hc' hl A G hA hG (hn.mono hr)) T.length (fun c hc => by
      refine finite_min (P := fun c' r => Linked (fun c i => c < T.length ∧ i < H.length ∧
        SeenWell (intr.getD c ⟨0, 0, 0, 0⟩) ((T.getD c 1).inv * H.getD i 1) (pts c i)) c c' →
      ∀ A G : Nat → Iso, (∀ c, (A c).IsRigid) → (∀ i, (G i).IsRigid) →
      NearAll r intr T.length (fun _ => H.length) pts (fun c i => (A c).inv * G i) (fun c i => (T.getD c 1).inv * H.getD i 1) →
      Close e ((A c).inv * A c') ((T.getD c 1).inv * T.getD c' 1))
        (fun c' r r' h hr hl A G hA hG hn => h hl A G hA hG (hn.mono hr)) T.length (fun c' hc' => ?_)
      by_cases hl : Linked (fun c i => c < T.length ∧ i < H.length ∧
        SeenWell (intr.getD c ⟨0, 0, 0, 0⟩) ((T.getD c 1).inv * H.getD i 1) (pts c i)) c c'
      · obtain ⟨r, hr, h⟩ := linked_stable (T := fun c => T.getD c 1) (H := fun c => H.getD c 1) rT rH hz hl he
        exact ⟨r, hr, fun _ => h⟩
      · exact ⟨1, one_pos, fun h => absurd h hl⟩)
  obtain ⟨d, hd, hfit⟩ := fit_bound hr ((List.range H.length).flatMap fun i => (List.range T.length).flatMap fun c => pts c i).length
  refine ⟨d, hd, fun s p res hs h hi hlen hlen' hobs hfix hr1 hr2 fs hfs hn hz' hgood c hc c' hc' hl => ?_⟩
  have hfin := C126_camera_only_final s hs p res h hfix (by
    intro h0
    rw [h0] at hlen'
    exact hne (List.length_eq_zero_iff.1 hlen'.symm)) hr1 (by
    rw [hlen, hlen', ← hfs]; exact fun f hf => (hz' f hf).ne')
  rw [hlen, hlen', hi, ← hfs] at hfin
  rw [hfin] at hgood
  have key := hfit fs (truePixel intr res.baseToCamera fun _ i => res.baseToTarget.getD i 1) (fun f => f.corr.inImage)
    (truePixel intr T fun _ i => H.getD i 1) (by rw [hfs, byImage_length hobs]) hgood hn
  refine hst c hc c' hc' hl (fun c => res.baseToCamera.getD c 1) (fun i => res.baseToTarget.getD i 1) (rigid_getD hr1) (rigid_getD hr2)
    fun c hc i hi' => ?_
  exact nearView_of (intr := intr) (cams := res.baseToCamera) (cams' := T) (tgt := fun _ i => res.baseToTarget.getD i 1)
    (tgt' := fun _ i => H.getD i 1) hobs (fun k hk => by rw [hfs]; exact byImage_mem hc hi' hk) hz' key

/-- With the first camera fixed at its true pose the accuracy holds for the poses of all cameras linked to it. -/
theorem C211_camera_only_fixed (intr : List Intr) (pts : Nat → Nat → List V3) (T H : List Iso) (hT : ∀ t ∈ T, RigidMotion t)
    (hH : ∀ t ∈ H, RigidMotion t) (hne : H ≠ []) (g : Iso) (hg : T[0]? = some g) (hrep : Representable g)
    (hz : ∀ c < T.length, ∀ i < H.length, ∀ q ∈ pts c i, 0 < (((T.getD c 1).inv * H.getD i 1).apply q).z) (e : ℝ) (he : 0 < e) :
    ∃ r : ℝ, 0 < r ∧ ∀ (s : Ceres Pose6) (p : CoProblem) (res : CoResult), s.WF → cameraOnly s p = .ok res → p.intr = intr →
      p.fixFirst = true → p.baseToCameraGuess[0]? = some g →
      p.baseToCameraGuess.length = T.length → p.baseToTargetGuess.length = H.length → Shows p.observations pts →
      (∀ c ∈ res.baseToCamera, RigidMotion c) → (∀ t ∈ res.baseToTarget, RigidMotion t) →
      ∀ fs, fs = byImage p.observations T.length H.length →
      PixelNoise r fs (fun f => f.corr.inImage) (truePixel intr T fun _ i => H.getD i 1) →
      (∀ f ∈ fs, 0 < staticDepth (res.baseToCamera.getD f.cam 1) (res.baseToTarget.getD f.img 1) f.corr) →
      ((∃ F, res.finalCost = some F ∧ F ≤ r) ∨
        Spec.sumSq (staticErrors intr res.baseToCamera (fun _ i => res.baseToTarget.getD i 1) fs) ≤
          Spec.sumSq (staticErrors intr T (fun _ i => H.getD i 1) fs)) →
      ∀ c < T.length, Linked (fun c i => c < T.length ∧ i < H.length ∧
        SeenWell (intr.getD c ⟨0, 0, 0, 0⟩) ((T.getD c 1).inv * H.getD i 1) (pts c i)) 0 c →
      Close e (res.baseToCamera.getD c 1) (T.getD c 1) := by
  obtain ⟨r, hr, hst⟩ := C211_camera_only intr pts T H hT hH hne hz e he
  have h0 : 0 < T.length := by
    rcases Nat.eq_zero_or_pos T.length with h | h
    · rw [List.length_eq_zero_iff] at h; rw [h] at hg; cases hg
    · exact h
  refine ⟨r, hr, fun s p res hs h hi hf hg0 hlen hlen' hobs hr1 hr2 fs hfs hn hz' hgood c hc hl => ?_⟩
  have k := hst s p res hs h hi hlen hlen' hobs (fun _ g' hg' => by rw [hg0] at hg'; cases hg'; exact hrep) hr1 hr2 fs hfs hn hz' hgood
    0 h0 c hc hl
  have h39 := C39_partial s hs p res h hf (by
    intro h0
    rw [h0] at hlen'
    exact hne (List.length_eq_zero_iff.1 hlen'.symm)) g hg0 hrep
  rw [getD_of_some h39, getD_of_some hg] at k
  have := k.mul_left hrep.rigid
  rwa [Iso.mul_inv_cancel_left hrep.rigid, Iso.mul_inv_cancel_left hrep.rigid] at this

theorem oneImage_mem {obs : List (List Corr2)} {cams c : Nat} {k : Corr2} (hc : c < cams) (hk : k ∈ obs.getD c []) :
    (⟨c, 0, k⟩ : Feature) ∈ oneImage obs cams :=
  List.mem_flatMap.2 ⟨c, List.mem_range.2 hc, List.mem_map.2 ⟨k, hk, rfl⟩⟩

/-- The pose of a target seen by several cameras at known places. If one of them sees it well, then for every wanted accuracy there
is a bound on pixel noise and final cost that guarantees it for the reported pose. -/
theorem C211_pnp (intr : List Intr) (pts : Nat → List V3) (C : List Iso) (T : Iso) (hC : ∀ c ∈ C, Representable c) (hT : RigidMotion T)
    (hz : ∀ c < C.length, ∀ q ∈ pts c, 0 < (((C.getD c 1).inv * T).apply q).z) (x : Nat) (hx : x < C.length)
    (hsee : SeenWell (intr.getD x ⟨0, 0, 0, 0⟩) ((C.getD x 1).inv * T) (pts x)) (e : ℝ) (he : 0 < e) :
    ∃ r : ℝ, 0 < r ∧ ∀ (s : Ceres Pose6) (p : McPnpProblem) (res : McPnpResult), mcPnp s p = .ok res → p.intr = intr →
      p.baseToCamera = C → (∀ c : Nat, (p.observations.getD c []).map (fun k => k.inTarget) = pts c) → RigidMotion res.baseToTarget →
      ∀ fs, fs = oneImage p.observations C.length →
      PixelNoise r fs (fun f => f.corr.inImage) (truePixel intr C fun _ _ => T) →
      (∀ f ∈ fs, 0 < staticDepth (C.getD f.cam 1) res.baseToTarget f.corr) →
      ((∃ F, res.finalCost = some F ∧ F ≤ r) ∨
        Spec.sumSq (staticErrors intr C (fun _ _ => res.baseToTarget) fs) ≤ Spec.sumSq (staticErrors intr C (fun _ _ => T) fs)) →
      Close e res.baseToTarget T := by
  have rC : ∀ c : Nat, (C.getD c 1).IsRigid := rigid_getD fun c hc => (hC c hc).1
  have rT := (rigid_iff _).2 hT
  obtain ⟨r, hr, hst⟩ := view_stable ((rC x).inv.mul rT) hsee (hz x hx) he
  obtain ⟨d, hd, hfit⟩ := fit_bound hr ((List.range C.length).flatMap fun c => pts c).length
  refine ⟨d, hd, fun s p res h hi hc hobs hr1 fs hfs hn hz' hgood => ?_⟩
  have hfin := C125_final s p res h (by rw [hc]; exact hC) (by
    rw [hc, ← hfs]; exact fun f hf => (hz' f hf).ne')
  rw [hc, hi, ← hfs] at hfin
  rw [hfin] at hgood
  have key := hfit fs (truePixel intr C fun _ _ => res.baseToTarget) (fun f => f.corr.inImage) (truePixel intr C fun _ _ => T) (by
    rw [hfs, oneImage]
    simp only [List.length_flatMap, List.length_map, ← hobs]) hgood hn
  have hnear : NearView r (intr.getD x ⟨0, 0, 0, 0⟩) ((C.getD x 1).inv * res.baseToTarget) ((C.getD x 1).inv * T) (pts x) := by
    intro q hq
    rw [← hobs x] at hq
    obtain ⟨k, hk, rfl⟩ := List.mem_map.1 hq
    have hm : (⟨x, 0, k⟩ : Feature) ∈ fs := by rw [hfs]; exact oneImage_mem hx hk
    have h1 := hz' _ hm
    have h2 := key _ hm
    simp only [staticDepth, truePixel] at h1 h2
    exact ⟨h1, h2⟩
  have := (hst _ ((rC x).inv.mul ((rigid_iff _).2 hr1)) hnear).mul_left (rC x)
  rwa [Iso.mul_inv_cancel_left (rC x), Iso.mul_inv_cancel_left (rC x)] at this

/-! ### Examples: the hypotheses of the theorems hold in concrete runs, whatever accuracy is asked for -/

theorem GoodView.seenWell {intr : Intr} {C T : Iso} {ks : List Corr2} (h : GoodView intr C T ks) :
    SeenWell intr (C.inv * T) (ks.map fun k => k.inTarget) := by
  obtain ⟨⟨a, ha, b, hb, c, hc, d, hd, hq⟩, h1, h2, h3⟩ := h
  exact ⟨⟨_, List.mem_map.2 ⟨a, ha, rfl⟩, _, List.mem_map.2 ⟨b, hb, rfl⟩, _, List.mem_map.2 ⟨c, hc, rfl⟩, _, List.mem_map.2 ⟨d, hd, rfl⟩, hq⟩,
    h1, h2, h3⟩

/-- The points the two cameras of the example see. -/
noncomputable def stPts (W : List Iso) (c i : Nat) : List V3 := (((stObs W).getD c []).getD i []).map fun k => k.inTarget

theorem stPts_depth {W : List Iso} (hW : ∀ w ∈ W, w ∈ [1, quarterX, quarterZ]) {c i : Nat} (hc : c < 2) (hi : i < W.length) :
    ∀ q ∈ stPts W c i, 0 < (((stCam c).inv * (W.getD i 1 * shiftBy 10 10 10)).apply q).z := by
  intro q hq
  obtain ⟨k, hk, rfl⟩ := List.mem_map.1 hq
  have := stDepth hW le_rfl (byCamera_mem (images := fun _ => W.length) hc hi hk)
  rwa [zero_add] at this

theorem stAxes : AxesDiffer (wristMotion (([1, quarterX, quarterZ] : List Iso).getD 1 1) (([1, quarterX, quarterZ] : List Iso).getD 0 1)).R
    (wristMotion (([1, quarterX, quarterZ] : List Iso).getD 2 1) (([1, quarterX, quarterZ] : List Iso).getD 0 1)).R := by
  intro h0
  have := congrArg V3.y h0
  norm_num [wristMotion, turnVector, V3.cross, Iso.inv_one, Iso.mul_one, quarterX, quarterZ] at this

/-- `C211_multi`: two cameras, and a wrist that makes two quarter turns. -/
example (e : ℝ) (he : 0 < e) : ∃ (p : MsProblem) (res : MsResult), multiStatic (idCeres Pose6) p = .ok res ∧
    p.baseToCameraGuess.length = 2 ∧ Close e res.wristToTarget (shiftBy 10 10 10) ∧ Close e (res.baseToCamera.getD 1 1) (stCam 1) := by
  obtain ⟨W, hWe⟩ : ∃ W : List Iso, W = [1, quarterX, quarterZ] := ⟨_, rfl⟩
  have hW : ∀ w ∈ W, w ∈ [1, quarterX, quarterZ] := by rw [hWe]; exact fun _ h => h
  have hlen : W.length = 3 := by rw [hWe]; rfl
  obtain ⟨res, h⟩ := stProblem_runs W (by rw [hWe]; simp)
  obtain ⟨r1, r2⟩ := C34_multi_static (idCeres Pose6) (stProblem W) res (fun _ _ => rfl) (shiftBy_rep _ _ _) stCams_rep h
  replace r1 : res.wristToTarget = shiftBy 10 10 10 := r1
  replace r2 : res.baseToCamera = [stCam 0, stCam 1] := r2
  have hwell : ∀ c i : Nat, c < 2 → i < 3 → i < ([W, W].getD c []).length ∧ SeenWell ([⟨1, 1, 0, 0⟩, ⟨1, 1, 0, 0⟩].getD c ⟨0, 0, 0, 0⟩)
      (([stCam 0, stCam 1].getD c 1).inv * (([W, W].getD c []).getD i 1 * shiftBy 10 10 10)) (stPts W c i) := by
    intro c i hc hi
    rw [stWrists_get W hc, stIntr_get hc, stCams_get hc]
    exact ⟨by omega, GoodView.seenWell (stGood hW hc (by omega))⟩
  obtain ⟨r, hr, key⟩ := C211_multi [⟨1, 1, 0, 0⟩, ⟨1, 1, 0, 0⟩] [W, W] (stPts W) [stCam 0, stCam 1] (shiftBy 10 10 10)
    (by
      intro wp hwp w hw
      have : wp = W := by simpa using hwp
      exact stWrist_rep (hW w (this ▸ hw)))
    (fun c hc => (stCams_rep c hc).1) (shiftBy_rep _ _ _).1
    (by
      intro c hc i hi
      rw [stWrists_get W hc] at hi ⊢
      rw [stCams_get hc]
      exact stPts_depth hW hc hi)
    0 1 2 0 (by simp) (by
      intro i hi
      refine hwell 0 i (by norm_num) ?_
      simp only [List.mem_cons, List.not_mem_nil, or_false] at hi
      omega) (by rw [hWe]; exact stAxes)
    (fun c hc => ⟨0, hwell c 0 hc (by norm_num)⟩) e he
  obtain ⟨k1, k2⟩ := key (idCeres Pose6) (stProblem W) res h rfl rfl rfl (fun _ _ => rfl) (by rw [r2]; exact fun c hc => (stCams_rep c hc).1)
    (by rw [r1]; exact (shiftBy_rep _ _ _).1) _ rfl
    (by
      intro f hf
      have hf' : f ∈ byCamera (stObs W) 2 fun _ => W.length := by rw [← stByCamera]; exact hf
      obtain ⟨h1, -, -, h4⟩ := stObs_feature hf'
      simp only [truePixel]
      rw [h4, stWrists_get W h1, stIntr_get h1, stCams_get h1]
      simp [hr.le])
    (by
      intro f hf
      have hf' : f ∈ byCamera (stObs W) 2 fun _ => W.length := by rw [← stByCamera]; exact hf
      have h1 := (stObs_feature hf').1
      rw [r1, r2, stCams_get h1, stWrists_get W h1]
      simpa using stDepth hW le_rfl hf')
    (.inr (by rw [r1, r2]))
  exact ⟨stProblem W, res, h, rfl, k1, by simpa using k2 1 (by simp)⟩

/-- `C211_wrist_only`: the same cameras with a common correction. -/
example (e : ℝ) (he : 0 < e) : ∃ (p : WoProblem) (res : WoResult), wristOnly (idCeres Pose6) p = .ok res ∧
    p.baseToCameraGuess.length = 2 ∧ Close e res.wristToTarget (shiftBy 10 10 10) ∧ Close e (res.baseToCamera.getD 1 1) (stCam 1) := by
  obtain ⟨W, hWe⟩ : ∃ W : List Iso, W = [1, quarterX, quarterZ] := ⟨_, rfl⟩
  have hW : ∀ w ∈ W, w ∈ [1, quarterX, quarterZ] := by rw [hWe]; exact fun _ h => h
  have hlen : W.length = 3 := by rw [hWe]; rfl
  obtain ⟨p, hp⟩ : ∃ p : WoProblem, p = ⟨[⟨1, 1, 0, 0⟩, ⟨1, 1, 0, 0⟩], W, stObs W, shiftBy 10 10 10, [stCam 0, stCam 1]⟩ := ⟨_, rfl⟩
  obtain ⟨res, h⟩ : ∃ res, wristOnly (idCeres Pose6) p = .ok res := by rw [hp, hWe]; exact ⟨_, rfl⟩
  obtain ⟨r1, r2⟩ := C34_wrist_only (idCeres Pose6) p res (fun _ _ => rfl) (by rw [hp]; exact shiftBy_rep _ _ _) h
  replace r1 : res.wristToTarget = shiftBy 10 10 10 := by rw [r1, hp]
  replace r2 : res.baseToCamera = [stCam 0, stCam 1] := by rw [r2, hp]
  have e1 : ([stCam 0, stCam 1].map (1 * ·)) = [stCam 0, stCam 1] := by simp [Iso.one_mul]
  obtain ⟨r, hr, key⟩ := C211_wrist_only [⟨1, 1, 0, 0⟩, ⟨1, 1, 0, 0⟩] W (stPts W) [stCam 0, stCam 1] 1 (shiftBy 10 10 10)
    (fun w hw => stWrist_rep (hW w hw)) stCams_rep Representable.one.1 (shiftBy_rep _ _ _).1
    (by
      intro c hc i hi
      rw [Iso.one_mul, stCams_get hc]
      exact stPts_depth hW hc hi)
    0 1 1 2 1 0 (by
      intro v hv
      have hv' : v.1 < 2 ∧ v.2 < W.length := by
        simp only [List.mem_cons, List.not_mem_nil, or_false] at hv
        rcases hv with rfl | rfl | rfl <;> rw [hlen] <;> norm_num
      refine ⟨hv'.1, hv'.2, ?_⟩
      rw [Iso.one_mul, stIntr_get hv'.1, stCams_get hv'.1]
      exact GoodView.seenWell (stGood hW hv'.1 hv'.2)) (by rw [hWe]; exact stAxes) e he
  rw [e1] at key
  obtain ⟨k1, k2⟩ := key (idCeres Pose6) p res h (by rw [hp]) (by rw [hp]) (by rw [hp]) (by rw [hp]; exact fun _ _ => rfl)
    (by rw [r2]; exact fun c hc => (stCams_rep c hc).1) (by rw [r1]; exact (shiftBy_rep _ _ _).1) _ rfl
    (by
      rw [hp]
      intro f hf
      obtain ⟨h1, -, -, h4⟩ := stObs_feature hf
      simp only [truePixel]
      rw [h4, stIntr_get h1, stCams_get h1]
      simp [hr.le])
    (by
      rw [hp]
      intro f hf
      rw [r1, r2, stCams_get (stObs_feature hf).1]
      simpa using stDepth hW le_rfl hf)
    (.inr (by rw [r1, r2]))
  refine ⟨p, res, h, by rw [hp]; rfl, k1, ?_⟩
  have := k2 1 (by simp)
  simpa [Iso.one_mul] using this

/-- `C211_camera_only`, `C211_camera_only_fixed`: no image is shared by the first and the third camera. -/
example (e : ℝ) (he : 0 < e) : ∃ res, cameraOnly (idCeres Pose6) (lineProblem true chainVis) = .ok res ∧
    Close e ((res.baseToCamera.getD 0 1).inv * res.baseToCamera.getD 2 1) ((lineCams.getD 0 1).inv * lineCams.getD 2 1) ∧
    Close e (res.baseToCamera.getD 2 1) (lineCams.getD 2 1) := by
  obtain ⟨res, h⟩ : ∃ res, cameraOnly (idCeres Pose6) (lineProblem true chainVis) = .ok res := ⟨_, rfl⟩
  obtain ⟨h1, h2, h3⟩ := line_run h ⟨0, by norm_num, 0, by norm_num, rfl⟩
  obtain ⟨pts, hpts⟩ : ∃ pts : Nat → Nat → List V3, pts = fun c i =>
    (((lineProblem true chainVis).observations.getD c []).getD i []).map fun k => k.inTarget := ⟨_, rfl⟩
  have hz : ∀ c < lineCams.length, ∀ i < lineTgts.length, ∀ q ∈ pts c i,
      0 < (((lineCams.getD c 1).inv * lineTgts.getD i 1).apply q).z := by
    intro c hc i hi q hq
    rw [hpts] at hq
    obtain ⟨k, hk, rfl⟩ := List.mem_map.1 hq
    have := line_depth (fix := true) (vis := chainVis) (f := ⟨c, i, k⟩) (byImage_mem hc hi hk)
    simp only [staticDepth] at this
    exact this
  have hwell : ∀ c i : Nat, c < 3 ∧ i < 2 ∧ chainVis c i = true → c < lineCams.length ∧ i < lineTgts.length ∧
      SeenWell ((lineProblem true chainVis).intr.getD c ⟨0, 0, 0, 0⟩) ((lineCams.getD c 1).inv * lineTgts.getD i 1) (pts c i) := by
    intro c i hci
    obtain ⟨k1, k2, k3⟩ := line_well (fix := true) hci
    rw [hpts]
    exact ⟨k1, k2, GoodView.seenWell k3⟩
  have hlink : Linked (fun c i => c < lineCams.length ∧ i < lineTgts.length ∧
      SeenWell ((lineProblem true chainVis).intr.getD c ⟨0, 0, 0, 0⟩) ((lineCams.getD c 1).inv * lineTgts.getD i 1) (pts c i)) 0 2 :=
    .tail (b := 1) (.tail .refl ⟨0, hwell 0 0 ⟨by norm_num, by norm_num, rfl⟩, hwell 1 0 ⟨by norm_num, by norm_num, rfl⟩⟩)
      ⟨1, hwell 1 1 ⟨by norm_num, by norm_num, rfl⟩, hwell 2 1 ⟨by norm_num, by norm_num, rfl⟩⟩
  have hT : ∀ c ∈ lineCams, RigidMotion c := fun c hc => (lineCams_rep c hc).1
  have hH : ∀ c ∈ lineTgts, RigidMotion c := fun c hc => (lineTgts_rep c hc).1
  have hn : ∀ r : ℝ, 0 < r → PixelNoise r (byImage (lineProblem true chainVis).observations lineCams.length lineTgts.length)
      (fun f => f.corr.inImage) (truePixel (lineProblem true chainVis).intr lineCams fun _ i => lineTgts.getD i 1) := by
    intro r hr f hf
    obtain ⟨hc, hi, -, hk⟩ := line_feature (fix := true) hf
    obtain ⟨q, -, hq⟩ := List.mem_map.1 hk
    simp only [truePixel, (line_cam hc).1, (line_cam hc).2, line_tgt hi, line_pose]
    rw [← hq]
    simp [hr.le]
  refine ⟨res, h, ?_, ?_⟩
  · obtain ⟨r, hr, key⟩ := C211_camera_only (lineProblem true chainVis).intr pts lineCams lineTgts hT hH (by simp [lineTgts]) hz e he
    exact key (idCeres Pose6) _ res (idCeres_wf _) h rfl rfl rfl (by rw [hpts]; exact fun _ _ => rfl)
      (fun _ g hg => lineCams_rep g (List.mem_of_getElem? hg)) (by rw [h1]; exact hT) (by rw [h2]; exact hH) _ rfl (hn r hr)
      (fun f hf => by rw [h1, h2]; exact line_depth hf) (.inl ⟨0, h3, hr.le⟩) 0 (by simp [lineCams]) 2 (by simp [lineCams]) hlink
  · obtain ⟨r, hr, key⟩ := C211_camera_only_fixed (lineProblem true chainVis).intr pts lineCams lineTgts hT hH (by simp [lineTgts])
      (shiftBy 0 0 0) rfl (shiftBy_rep _ _ _) hz e he
    exact key (idCeres Pose6) _ res (idCeres_wf _) h rfl rfl rfl rfl rfl (by rw [hpts]; exact fun _ _ => rfl)
      (by rw [h1]; exact hT) (by rw [h2]; exact hH) _ rfl (hn r hr)
      (fun f hf => by rw [h1, h2]; exact line_depth hf) (.inl ⟨0, h3, hr.le⟩) 2 (by simp [lineCams]) hlink

/-- What camera `c` of the example measures of a target at `T` if all features are `r` too far to the right. -/
noncomputable def stNoisy (r c : ℝ) (T : Iso) : List Corr2 := squarePoints.map fun q =>
  ⟨⟨(pinhole ⟨1, 1, 0, 0⟩ (((stCam c).inv * T).apply q)).x + r, (pinhole ⟨1, 1, 0, 0⟩ (((stCam c).inv * T).apply q)).y⟩, q⟩

/-- `C211_pnp`: two cameras; all features are measured too far to the right. -/
example (e : ℝ) (he : 0 < e) : ∃ (p : McPnpProblem) (res : McPnpResult), mcPnp (idCeres Pose6) p = .ok res ∧
    p.baseToCamera = [stCam 0, stCam 1] ∧
    (∀ c : Nat, c < 2 → ∀ k ∈ p.observations.getD c [], k.inImage ≠ pinhole ⟨1, 1, 0, 0⟩ (((stCam c).inv * shiftBy 10 10 10).apply k.inTarget)) ∧
    Close e res.baseToTarget (shiftBy 10 10 10) := by
  have hv := fun (m : ℝ) (hm : 0 ≤ m) => stView hm (w := 1) (by simp)
  simp only [Iso.one_mul] at hv
  have hpos : ∀ c : Nat, c < ([stCam 0, stCam 1] : List Iso).length → ∀ q ∈ squarePoints,
      0 < ((([stCam 0, stCam 1].getD c 1).inv * shiftBy 10 10 10).apply q).z := by
    intro c hc
    rw [stCams_get hc]
    exact (hv c (Nat.cast_nonneg _)).2.2
  obtain ⟨r, hr, key⟩ := C211_pnp [⟨1, 1, 0, 0⟩, ⟨1, 1, 0, 0⟩] (fun c => if c < 2 then squarePoints else []) [stCam 0, stCam 1]
    (shiftBy 10 10 10) stCams_rep (shiftBy_rep _ _ _).1
    (by
      intro c hc q hq
      rw [if_pos (show c < 2 from hc)] at hq
      exact hpos c hc q hq) 0 (by simp) (by
      rw [stIntr_get (by norm_num), stCams_get (by norm_num), if_pos (by norm_num)]
      refine ⟨⟨_, ?_, _, ?_, _, ?_, _, ?_, square_quadrangle⟩, by norm_num, by norm_num, (hv _ (Nat.cast_nonneg _)).2.1⟩ <;>
        simp [squarePoints]) e he
  obtain ⟨p, hp⟩ : ∃ p : McPnpProblem, p = ⟨[⟨1, 1, 0, 0⟩, ⟨1, 1, 0, 0⟩], [stCam 0, stCam 1],
    [stNoisy r 0 (shiftBy 10 10 10), stNoisy r 1 (shiftBy 10 10 10)], shiftBy 10 10 10⟩ := ⟨_, rfl⟩
  obtain ⟨res, h⟩ : ∃ res, mcPnp (idCeres Pose6) p = .ok res := by rw [hp]; exact ⟨_, rfl⟩
  have r1 : res.baseToTarget = shiftBy 10 10 10 := by
    rw [C34_multi_camera_pnp (idCeres Pose6) p res (fun _ _ => rfl) (by rw [hp]; exact shiftBy_rep _ _ _) h, hp]
  have hobs : ∀ c : Nat, c < 2 → p.observations.getD c [] = stNoisy r c (shiftBy 10 10 10) := by
    intro c hc
    rw [hp]
    have : c = 0 ∨ c = 1 := by omega
    rcases this with rfl | rfl <;> simp
  have hmem : ∀ f ∈ oneImage p.observations 2, f.cam < 2 ∧ ∃ q ∈ squarePoints, f.corr =
      ⟨⟨(pinhole ⟨1, 1, 0, 0⟩ (((stCam f.cam).inv * shiftBy 10 10 10).apply q)).x + r,
        (pinhole ⟨1, 1, 0, 0⟩ (((stCam f.cam).inv * shiftBy 10 10 10).apply q)).y⟩, q⟩ := by
    intro f hf
    obtain ⟨c, hc, hf⟩ := List.mem_flatMap.1 hf
    rw [List.mem_range] at hc
    rw [hobs c hc] at hf
    obtain ⟨k, hk, rfl⟩ := List.mem_map.1 hf
    obtain ⟨q, hq, rfl⟩ := List.mem_map.1 hk
    exact ⟨hc, q, hq, rfl⟩
  refine ⟨p, res, h, by rw [hp], fun c hc k hk h0 => ?_, ?_⟩
  · rw [hobs c hc] at hk
    obtain ⟨q, hq, rfl⟩ := List.mem_map.1 hk
    have := congrArg V2.x h0
    simp only at this
    linarith
  · refine key (idCeres Pose6) p res h (by rw [hp]) (by rw [hp]) ?_ (by rw [r1]; exact (shiftBy_rep _ _ _).1) _ rfl ?_ ?_
      (.inr (by rw [r1]))
    · intro c
      by_cases hc : c < 2
      · rw [hobs c hc, if_pos hc, stNoisy, List.map_map]
        exact List.map_id _
      · rw [if_neg hc, hp, List.getD_eq_getElem?_getD, List.getElem?_eq_none (by simp; omega)]
        rfl
    · intro f hf
      obtain ⟨hc, q, hq, hk⟩ := hmem f hf
      simp only [truePixel]
      rw [stIntr_get hc, stCams_get hc, hk]
      simp [abs_of_pos hr, hr.le]
    · intro f hf
      obtain ⟨hc, q, hq, hk⟩ := hmem f hf
      rw [r1]
      have := hpos f.cam hc q hq
      simp only [staticDepth]
      rw [hk]
      exact this

end RCT
