import Verif.Props.Targets
import Verif.Model.PnP
import Verif.Props.PoseProjection

/-!
# C98, C99: marker finders and reprojections
-/

namespace RCT

open Spec

/-- A map filled with `emplace`: the first entry of a key stays. -/
theorem emplace_first {K V : Type} [DecidableEq K] [LT K] [DecidableLT K] (key : Nat → K) (val : Nat → V) (n : Nat) (k : K) (v : V) :
    ((List.range n).foldl (fun m i => SMap.emplace m (key i) (val i)) []).find k = some v ↔
      ∃ a, a < n ∧ key a = k ∧ val a = v ∧ ∀ b, b < a → key b ≠ k := by
  induction n generalizing k v with
  | zero => simp [SMap.find]
  | succ n ih =>
    rw [List.range_succ, List.foldl_append]
    simp only [List.foldl_cons, List.foldl_nil]
    generalize hm : (List.range n).foldl (fun m i => SMap.emplace m (key i) (val i)) [] = m at ih
    rw [SMap.find_emplace]
    by_cases hk : k = key n
    · rw [if_pos hk]
      subst hk
      cases hf : m.find (key n) with
      | some w =>
        obtain ⟨a, ha, h1, h2, h3⟩ := (ih (key n) w).1 hf
        simp only [Option.getD_some, Option.some.injEq]
        constructor
        · rintro rfl
          exact ⟨a, by omega, h1, h2, h3⟩
        · rintro ⟨a', ha', h1', h2', h3'⟩
          have : a = a' := by
            rcases Nat.lt_trichotomy a a' with h | h | h
            · exact absurd h1 (h3' a h)
            · exact h
            · exact absurd h1' (h3 a' h)
          subst this
          rw [← h2, h2']
      | none =>
        simp only [Option.getD_none, Option.some.injEq]
        have hno : ∀ b, b < n → key b ≠ key n := by
          intro b hb he
          -- take the first such b
          have hex : ∃ b, b < n ∧ key b = key n := ⟨b, hb, he⟩
          classical
          have hmin := Nat.find_spec hex
          have := (ih (key n) (val (Nat.find hex))).2 ⟨Nat.find hex, hmin.1, hmin.2, rfl, fun c hc hce =>
            Nat.find_min hex hc ⟨by omega, hce⟩⟩
          rw [hf] at this
          cases this
        constructor
        · rintro rfl
          exact ⟨n, by omega, rfl, rfl, hno⟩
        · rintro ⟨a, ha, h1, h2, -⟩
          have : a = n := by
            by_contra hne
            exact hno a (by omega) h1
          subst this; exact h2
    · rw [if_neg hk, ih]
      constructor
      · rintro ⟨a, ha, h⟩; exact ⟨a, by omega, h⟩
      · rintro ⟨a, ha, h1, h2⟩
        have : a ≠ n := fun e => hk (by rw [← h1, e])
        exact ⟨a, by omega, h1, h2⟩

theorem SMap.place_perm {K V : Type} [LT K] [DecidableLT K] (k : K) (v : V) (m : SMap K V) :
    (SMap.place k v m).Perm ((k, v) :: m) := by
  induction m with
  | nil => exact .refl _
  | cons e m ih =>
    unfold SMap.place
    split
    · exact .refl _
    · exact (ih.cons e).trans (.swap _ _ _)

theorem emplace_nodup {K V : Type} [DecidableEq K] [LT K] [DecidableLT K] (m : SMap K V) (k : K) (v : V)
    (h : (m.map Prod.fst).Nodup) : ((m.emplace k v).map Prod.fst).Nodup := by
  unfold SMap.emplace
  cases hf : m.find k with
  | some _ => exact h
  | none =>
    refine ((SMap.place_perm k v m).map Prod.fst).nodup_iff.2 (List.nodup_cons.2 ⟨?_, h⟩)
    intro ha
    obtain ⟨e, he, rfl⟩ := List.mem_map.1 ha
    have := SMap.find_of_mem h he
    rw [hf] at this
    cases this

theorem emplace_fold_nodup {K V : Type} [DecidableEq K] [LT K] [DecidableLT K] (key : Nat → K) (val : Nat → V) (l : List Nat)
    (m : SMap K V) (h : (m.map Prod.fst).Nodup) :
    ((l.foldl (fun m i => SMap.emplace m (key i) (val i)) m).map Prod.fst).Nodup := by
  induction l generalizing m with
  | nil => exact h
  | cons a l ih => exact ih _ (emplace_nodup m _ _ h)

/-- `n` is the first marker of the list with id `k`. -/
def FirstWithId (ids : List Int) (n k : Nat) : Prop :=
  ids[n]? = some (k : Int) ∧ ∀ b : Nat, b < n → ids[b]? ≠ some (k : Int)

theorem toU32_eq {i : Int} (h0 : 0 ≤ i) (h1 : i < 2 ^ 31) : (toU32 i : Int) = i := by
  unfold toU32; omega

/-- Key equality of the finders in terms of the detected ids. -/
theorem key_iff {ids : List Int} (hid : ∀ i ∈ ids, 0 ≤ i ∧ i < 2 ^ 31) {a k : Nat} (ha : a < ids.length) :
    toU32 ((ids[a]?).getD 0) = k ↔ ids[a]? = some (k : Int) := by
  have h1 : ids[a]? = some ids[a] := by simp [ha]
  have h2 := hid ids[a] (by simp)
  rw [h1, Option.getD_some, Option.some.injEq]
  have := toU32_eq h2.1 h2.2
  omega

/-- C98 for ArUco markers: whatever OpenCV detects (ids with four corners each), the feature map contains, for every
detected id, the corners of the first marker detected with that id, and nothing else. -/
theorem C98_aruco (ids : List Int) (corners : List (List V2)) (hlen : corners.length = ids.length)
    (h4 : ∀ l ∈ corners, l.length = 4) (hid : ∀ i ∈ ids, 0 ≤ i ∧ i < 2 ^ 31) :
    ∃ fs, arucoFeatures ids corners = .ok fs ∧ (fs.map Prod.fst).Nodup ∧
      ∀ k us, fs.find k = some us ↔ ∃ n : Nat, FirstWithId ids n k ∧ corners[n]? = some us := by
  have hstep : ∀ (m : TargetFeatures), ∀ i ∈ List.range ids.length,
      ((Res.idxList corners i).bind fun pts =>
        if pts.length = 4 then (Res.idxList ids i).bind fun id => Res.ok (SMap.emplace m (toU32 id) pts) else Res.ub) =
      .ok (SMap.emplace m (toU32 ((ids[i]?).getD 0)) ((corners[i]?).getD [])) := by
    intro m i hi
    have hi := List.mem_range.1 hi
    have hi' : i < corners.length := by omega
    have h1 : ids[i]? = some ids[i] := by simp [hi]
    have h2 : corners[i]? = some corners[i] := by simp [hi']
    have h3 := h4 corners[i] (by simp)
    simp [Res.idxList, h1, h2, h3]
  refine ⟨_, Res.foldList_ok hstep, emplace_fold_nodup _ _ _ [] (by simp), ?_⟩
  intro k us
  rw [emplace_first (fun i => toU32 ((ids[i]?).getD 0)) (fun i => (corners[i]?).getD [])]
  constructor
  · rintro ⟨a, ha, h1, h2, h3⟩
    refine ⟨a, ⟨(key_iff hid ha).1 h1, ?_⟩, ?_⟩
    · intro b hb he
      exact h3 b hb ((key_iff hid (by omega)).2 he)
    · have ha' : a < corners.length := by omega
      have : corners[a]? = some corners[a] := by simp [ha']
      rw [this, Option.getD_some] at h2
      rw [this, h2]
  · rintro ⟨n, ⟨h1, h2⟩, h3⟩
    have hn := (List.getElem?_eq_some_iff.1 h1).1
    refine ⟨n, hn, (key_iff hid hn).2 h1, by rw [h3]; rfl, ?_⟩
    intro b hb he
    exact h2 b hb ((key_iff hid (by omega)).1 he)

/-- C98 for ChArUco intersections. -/
theorem C98_charuco (markers : Nat) (hm : markers ≠ 0) (ids : List Int) (corners : List V2)
    (hlen : corners.length = ids.length) (hn : ids.length < 2 ^ 31) (hid : ∀ i ∈ ids, 0 ≤ i ∧ i < 2 ^ 31) :
    ∃ fs, charucoFeatures markers ids.length corners ids = .ok fs ∧ (fs.map Prod.fst).Nodup ∧
      ∀ k us, fs.find k = some us ↔ ∃ n : Nat, FirstWithId ids n k ∧ ∃ p, corners[n]? = some p ∧ us = [p] := by
  have hdet : toU32 (ids.length : Int) = ids.length := by
    have := toU32_eq (i := (ids.length : Int)) (by omega) (by omega)
    exact_mod_cast this
  have hstep : ∀ (m : TargetFeatures), ∀ i ∈ List.range ids.length,
      ((Res.atList corners i).bind fun c =>
        (Res.idxList ids i).bind fun id => Res.ok (SMap.emplace m (toU32 id) [c])) =
      .ok (SMap.emplace m (toU32 ((ids[i]?).getD 0)) [(corners[i]?).getD 0]) := by
    intro m i hi
    have hi := List.mem_range.1 hi
    have hi' : i < corners.length := by omega
    have h1 : ids[i]? = some ids[i] := by simp [hi]
    have h2 : corners[i]? = some corners[i] := by simp [hi']
    simp [Res.idxList, Res.atList, h1, h2]
  unfold charucoFeatures
  rw [if_neg hm, hdet]
  refine ⟨_, Res.foldList_ok hstep, emplace_fold_nodup _ _ _ [] (by simp), ?_⟩
  intro k us
  rw [emplace_first (fun i => toU32 ((ids[i]?).getD 0)) (fun i => [(corners[i]?).getD 0])]
  constructor
  · rintro ⟨a, ha, h1, h2, h3⟩
    refine ⟨a, ⟨(key_iff hid ha).1 h1, ?_⟩, ?_⟩
    · intro b hb he
      exact h3 b hb ((key_iff hid (by omega)).2 he)
    · have ha' : a < corners.length := by omega
      have : corners[a]? = some corners[a] := by simp [ha']
      rw [this, Option.getD_some] at h2
      exact ⟨_, this, h2.symm⟩
  · rintro ⟨n, ⟨h1, h2⟩, p, h3, rfl⟩
    have hn := (List.getElem?_eq_some_iff.1 h1).1
    refine ⟨n, hn, (key_iff hid hn).2 h1, by rw [h3]; rfl, ?_⟩
    intro b hb he
    exact h2 b hb ((key_iff hid (by omega)).1 he)

/-- Without markers there is an exception. -/
theorem C98_charuco_none (detected : Int) (corners : List V2) (ids : List Int) :
    charucoFeatures 0 detected corners ids = .throw .runtimeError := rfl

/-- Finder and target of a ChArUco board together: every detected intersection is paired with the board point of its id. -/
theorem C98_charuco_pairs (board : List V3) (hb : board.length < 2 ^ 31) (markers : Nat) (hm : markers ≠ 0)
    (ids : List Int) (hnd : ids.Nodup) (corners : List V2) (hlen : corners.length = ids.length)
    (hid : ∀ i ∈ ids, 0 ≤ i ∧ i < board.length) :
    ∃ fs cs, charucoFeatures markers ids.length corners ids = .ok fs ∧
      (charucoPoints board).bind (fun m => charucoCorrespondences m fs) = .ok cs ∧
      ∀ n k : Nat, ∀ u p, ids[n]? = some (k : Int) → corners[n]? = some u → board[k]? = some p →
        (⟨u, p⟩ : Corr2) ∈ cs := by
  have hid' : ∀ i ∈ ids, 0 ≤ i ∧ i < 2 ^ 31 := fun i hi => ⟨(hid i hi).1, by have := (hid i hi).2; omega⟩
  have hle : ids.length ≤ board.length := by
    have h1 : (ids.map Int.toNat).Nodup := by
      refine List.Nodup.map_on ?_ hnd
      intro a ha b hb hab
      have := (hid a ha).1
      have := (hid b hb).1
      omega
    have h2 : (ids.map Int.toNat).Subperm (List.range board.length) := h1.subperm (by
      intro i hi
      obtain ⟨a, ha, rfl⟩ := List.mem_map.1 hi
      have := hid a ha
      exact List.mem_range.2 (by omega))
    simpa using h2.length_le
  have hbig : ids.length < 2 ^ 31 := by omega
  · obtain ⟨fs, hfs, hfn, hff⟩ := C98_charuco markers hm ids corners hlen hbig hid'
    obtain ⟨cs, hcs, -⟩ := C70_charuco_returns board (by omega) fs hfn (by
      intro e he
      obtain ⟨n, ⟨h1, -⟩, p, h2, h3⟩ := (hff e.1 e.2).1 (SMap.find_of_mem hfn he)
      have := hid _ (List.mem_of_getElem? h1)
      exact ⟨by omega, by rw [h3]; simp⟩)
    refine ⟨fs, cs, hfs, hcs, ?_⟩
    intro n k u p hn hu hp
    have hpair := C70_charuco_partial board (by omega) fs hfn (by
      intro e he
      obtain ⟨n, -, p, -, h3⟩ := (hff e.1 e.2).1 (SMap.find_of_mem hfn he)
      rw [h3]; rfl) cs hcs
    have hmem : (k, [u]) ∈ fs := by
      apply SMap.mem_of_find
      rw [hff]
      refine ⟨n, ⟨hn, ?_⟩, u, hu, rfl⟩
      intro b hb he
      have := nodup_getElem? hnd he hn
      omega
    obtain ⟨c, hc, h1, -, h2⟩ := hpair.complete k [u] hmem 0 u rfl
    rw [hp] at h2
    have : c = ⟨u, p⟩ := by
      cases c
      simp only at h1 h2
      rw [h1, Option.some.inj h2]
    rwa [← this]

/-! ### Concrete cases -/

example : ∃ fs, arucoFeatures [7, 3, 7] [[⟨0, 0⟩, ⟨1, 0⟩, ⟨1, 1⟩, ⟨0, 1⟩], [⟨5, 0⟩, ⟨6, 0⟩, ⟨6, 1⟩, ⟨5, 1⟩],
      [⟨9, 9⟩, ⟨8, 9⟩, ⟨8, 8⟩, ⟨9, 8⟩]] = .ok fs ∧ fs.find 7 = some [⟨0, 0⟩, ⟨1, 0⟩, ⟨1, 1⟩, ⟨0, 1⟩] := by
  obtain ⟨fs, h, -, hf⟩ := C98_aruco [7, 3, 7] [[⟨0, 0⟩, ⟨1, 0⟩, ⟨1, 1⟩, ⟨0, 1⟩], [⟨5, 0⟩, ⟨6, 0⟩, ⟨6, 1⟩, ⟨5, 1⟩],
      [⟨9, 9⟩, ⟨8, 9⟩, ⟨8, 8⟩, ⟨9, 8⟩]] rfl (by simp) (by simp)
  exact ⟨fs, h, (hf 7 _).2 ⟨0, ⟨rfl, by simp⟩, rfl⟩⟩

example : ∃ fs cs, charucoFeatures 4 2 [⟨10, 20⟩, ⟨30, 40⟩] [1, 0] = .ok fs ∧
    (charucoPoints [⟨0, 0, 0⟩, ⟨1, 0, 0⟩]).bind (fun m => charucoCorrespondences m fs) = .ok cs ∧
    (⟨⟨10, 20⟩, ⟨1, 0, 0⟩⟩ : Corr2) ∈ cs := by
  obtain ⟨fs, cs, h1, h2, h3⟩ := C98_charuco_pairs [⟨0, 0, 0⟩, ⟨1, 0, 0⟩] (by simp) 4 (by simp) [1, 0] (by simp)
    [⟨10, 20⟩, ⟨30, 40⟩] rfl (by simp)
  exact ⟨fs, cs, h1, h2, h3 0 1 _ _ rfl rfl rfl⟩

/-! ## C99 Reprojections -/

/-- Reprojections are the pinhole images of the transformed points, one for each point and in their order. -/
theorem C99_pinhole (T : Iso) (intr : Intr) (pts : List V3) (hz : ∀ p ∈ pts, (T.apply p).z ≠ 0) :
    (getReprojections T intr pts).length = pts.length ∧
      ∀ (n : Nat) p, pts[n]? = some p →
        (getReprojections T intr pts)[n]? = some (Spec.pinhole intr (T.apply p)) := by
  unfold getReprojections
  refine ⟨by simp, ?_⟩
  intro n p hp
  rw [List.getElem?_map, hp, Option.map_some, C02_pinhole intr _ (hz p (List.mem_of_getElem? hp))]

/-- At every pose of a PnP problem whose points lie in front of the camera, the residuals of the optimisation all
vanish exactly if the reprojections at the pose that PnP would report are the observed image points. -/
theorem C99_residuals (intr : Intr) (cs : List Corr2) (aa t : V3)
    (hz : ∀ c ∈ cs, ((pnpTransform aa t).apply c.inTarget).z > 1 / 10 ^ 10) :
    getReprojections (pnpTransform aa t) intr (cs.map Corr2.inTarget) = cs.map Corr2.inImage ↔
      ∀ c ∈ cs, pnpCost2 intr c.inTarget c.inImage aa t = [0, 0] := by
  unfold getReprojections
  rw [List.map_map, List.map_inj_left]
  refine forall₂_congr fun c hc => ?_
  rw [Function.comp, (C01_partial intr _).2 (Or.inl (hz c hc)), V2.ext_iff]
  simp [pnpCost2, sub_eq_zero]

/-- A point one unit off the axis, two units in front of the camera. -/
theorem reproj_example_depth : ∀ p ∈ [(⟨1, 0, 0⟩ : V3)], ((⟨M3.one, ⟨0, 0, 2⟩⟩ : Iso).apply p).z ≠ 0 := by
  intro p hp
  simp only [List.mem_singleton] at hp
  subst hp
  show (0 * 1 + 0 * 0 + 1 * 0 + 2 : ℝ) ≠ 0
  norm_num

example : (getReprojections ⟨M3.one, ⟨0, 0, 2⟩⟩ ⟨100, 100, 50, 60⟩ [⟨1, 0, 0⟩])[0]? =
    some (Spec.pinhole ⟨100, 100, 50, 60⟩ ((⟨M3.one, ⟨0, 0, 2⟩⟩ : Iso).apply ⟨1, 0, 0⟩)) :=
  (C99_pinhole _ _ _ reproj_example_depth).2 0 _ rfl

end RCT
