import Verif.Props.Finders

/-!
# C217: order of the correspondences of marker targets
-/

namespace RCT

open Spec

/-- The correspondences come in increasing order of the ids and, for one id, of the numbers of the corners: `tag` names the id and
the corner of each correspondence. -/
def InIdOrder (Seen : Nat → Nat → V2 → Prop) (Point : Nat → Nat → V3 → Prop) (cs : List Corr2) : Prop :=
  ∃ tags : List (Nat × Nat), tags.Pairwise (fun s t => s.1 < t.1 ∨ s.1 = t.1 ∧ s.2 < t.2) ∧
    List.Forall₂ (fun t (c : Corr2) => Seen t.1 t.2 c.inImage ∧ Point t.1 t.2 c.inTarget) tags cs

theorem foldList_keeps {α σ : Type} {f : σ → α → Res σ} {P : σ → Prop} (hf : ∀ s a s', f s a = .ok s' → P s → P s') :
    ∀ {l : List α} {s r : σ}, Res.foldList f s l = .ok r → P s → P r
  | [], s, r, h, hs => by
    cases h
    exact hs
  | a :: l, s, r, h, hs => by
    rw [Res.foldList_cons, Res.bind_ok_iff] at h
    obtain ⟨s', h1, h2⟩ := h
    exact foldList_keeps hf h2 (hf _ _ _ h1 hs)

/-- Keys in increasing order. -/
def Increasing {V : Type} (m : SMap Nat V) : Prop := m.Pairwise fun a b => a.1 < b.1

theorem place_increasing {V : Type} (k : Nat) (v : V) : ∀ (m : SMap Nat V), m.find k = none → Increasing m →
    Increasing (SMap.place k v m)
  | [], _, _ => by simp [SMap.place, Increasing]
  | e :: m, hf, h => by
    have hne : k ≠ e.1 := by
      rintro rfl
      simp [SMap.find, List.lookup] at hf
    have hm : SMap.find m k = none := by
      have hb : (k == e.1) = false := by simp [hne]
      simpa [SMap.find, List.lookup, hb] using hf
    obtain ⟨h1, h2⟩ := List.pairwise_cons.1 h
    unfold SMap.place
    split
    · rename_i hlt
      refine List.pairwise_cons.2 ⟨fun x hx => ?_, h⟩
      rcases List.mem_cons.1 hx with rfl | hx
      · exact hlt
      · exact hlt.trans (h1 x hx)
    · rename_i hlt
      refine List.pairwise_cons.2 ⟨fun x hx => ?_, place_increasing k v m hm h2⟩
      rcases List.mem_cons.1 ((SMap.place_perm k v m).mem_iff.1 hx) with rfl | hx
      · simp only; omega
      · exact h1 x hx

theorem emplace_increasing {V : Type} (m : SMap Nat V) (k : Nat) (v : V) (h : Increasing m) : Increasing (m.emplace k v) := by
  unfold SMap.emplace
  cases hf : m.find k with
  | some _ => exact h
  | none => exact place_increasing k v m hf h

theorem Increasing.nodup {V : Type} {m : SMap Nat V} (h : Increasing m) : (m.map Prod.fst).Nodup := by
  unfold List.Nodup
  rw [List.pairwise_map]
  exact h.imp fun hab => Nat.ne_of_lt hab

/-- Increasing maps with the same entries are the same list. -/
theorem Increasing.eq {V : Type} {m m' : SMap Nat V} (h : Increasing m) (h' : Increasing m')
    (he : ∀ k v, m.find k = some v ↔ m'.find k = some v) : m = m' := by
  have hmem : ∀ e, e ∈ m ↔ e ∈ m' := by
    rintro ⟨k, v⟩
    constructor
    · intro hx
      exact SMap.mem_of_find ((he k v).1 (SMap.find_of_mem h.nodup hx))
    · intro hx
      exact SMap.mem_of_find ((he k v).2 (SMap.find_of_mem h'.nodup hx))
  have hp : m.Perm m' := (List.perm_ext_iff_of_nodup (List.Nodup.of_map _ h.nodup) (List.Nodup.of_map _ h'.nodup)).2 hmem
  exact hp.eq_of_pairwise (fun a b _ _ hab hba => by omega) h h'

theorem arucoFeatures_increasing {ids : List Int} {corners : List (List V2)} {fs : TargetFeatures}
    (h : arucoFeatures ids corners = .ok fs) : Increasing fs := by
  refine foldList_keeps (P := Increasing) ?_ h List.Pairwise.nil
  intro s i s' hs hi
  rw [Res.bind_ok_iff] at hs
  obtain ⟨pts, -, hs⟩ := hs
  split at hs
  · rw [Res.bind_ok_iff] at hs
    obtain ⟨id, -, hs⟩ := hs
    cases hs
    exact emplace_increasing _ _ _ hi
  · cases hs

theorem charucoFeatures_increasing {markers : Nat} {detected : Int} {corners : List V2} {ids : List Int} {fs : TargetFeatures}
    (h : charucoFeatures markers detected corners ids = .ok fs) : Increasing fs := by
  unfold charucoFeatures at h
  split at h
  · cases h
  refine foldList_keeps (P := Increasing) ?_ h List.Pairwise.nil
  intro s i s' hs hi
  simp only [Res.bind_ok_iff] at hs
  obtain ⟨c, -, id, -, hs⟩ := hs
  cases hs
  exact emplace_increasing _ _ _ hi

/-- Lists tagged by their position, one after the other. -/
theorem tags_flatten {R : Nat → Nat → Corr2 → Prop} {fs : TargetFeatures} (hinc : Increasing fs) {ls : List (List Corr2)}
    (h : List.Forall₂ (fun e (l : List Corr2) => ∀ (i : Nat) c, l[i]? = some c → R e.1 i c) fs ls) :
    ∃ tags : List (Nat × Nat), (∀ t ∈ tags, ∃ e ∈ fs, t.1 = e.1) ∧
      tags.Pairwise (fun s t => s.1 < t.1 ∨ s.1 = t.1 ∧ s.2 < t.2) ∧
      List.Forall₂ (fun t c => R t.1 t.2 c) tags ls.flatten := by
  induction h with
  | nil => exact ⟨[], by simp, .nil, .nil⟩
  | @cons e l fs ls h1 h2 ih =>
    obtain ⟨hlt, hinc⟩ := List.pairwise_cons.1 hinc
    obtain ⟨tags, t1, t2, t3⟩ := ih hinc
    refine ⟨(List.range l.length).map (fun i => (e.1, i)) ++ tags, ?_, ?_, ?_⟩
    · intro t ht
      rcases List.mem_append.1 ht with ht | ht
      · obtain ⟨i, -, rfl⟩ := List.mem_map.1 ht
        exact ⟨e, by simp, rfl⟩
      · obtain ⟨e', he', h⟩ := t1 t ht
        exact ⟨e', by simp [he'], h⟩
    · rw [List.pairwise_append]
      refine ⟨?_, t2, ?_⟩
      · rw [List.pairwise_map]
        exact List.pairwise_lt_range.imp fun h => Or.inr ⟨rfl, h⟩
      · intro a ha b hb
        obtain ⟨i, -, rfl⟩ := List.mem_map.1 ha
        obtain ⟨e', he', h⟩ := t1 b hb
        left
        rw [h]
        exact hlt e' he'
    · rw [List.flatten_cons]
      refine List.rel_append ?_ t3
      rw [List.forall₂_map_left_iff, List.forall₂_iff_get]
      refine ⟨by simp, fun i hi hi' => ?_⟩
      simp only [List.get_eq_getElem, List.getElem_range]
      exact h1 i _ (by simp)

/-- C217 for ArUco boards: the correspondences come in the order of the marker ids and of the corners of each marker, whatever
the order of the detections. -/
theorem C217_aruco (b : ArucoBoard) (hb : b.WF) (ids : List Int) (corners : List (List V2))
    (hlen : corners.length = ids.length) (h4 : ∀ l ∈ corners, l.length = 4) (hid : ∀ i ∈ ids, 0 ≤ i ∧ i < 2 ^ 31) (cs : List Corr2)
    (h : (arucoFeatures ids corners).bind (fun fs => (arucoPoints b).bind fun m => arucoCorrespondences m fs) = .ok cs) :
    InIdOrder (fun k i u => ∃ n us, FirstWithId ids n k ∧ corners[n]? = some us ∧ us[i]? = some u) b.Point cs := by
  obtain ⟨fs, hfs, -, hfind⟩ := C98_aruco ids corners hlen h4 hid
  have hinc := arucoFeatures_increasing hfs
  rw [hfs, Res.ok_bind] at h
  obtain ⟨m, hm, hpts⟩ := arucoPoints_spec b hb
  rw [hm, Res.ok_bind] at h
  unfold arucoCorrespondences at h
  obtain ⟨ls, hls, hcs⟩ := (Res.bind_ok_iff _ _ _).1 h
  cases hcs
  rw [Res.mapList_ok_iff] at hls
  have hpair : List.Forall₂ (fun e (l : List Corr2) => ∀ (i : Nat) c, l[i]? = some c →
      ((∃ n us, FirstWithId ids n e.1 ∧ corners[n]? = some us ∧ us[i]? = some c.inImage) ∧ b.Point e.1 i c.inTarget)) fs ls := by
    refine hls.imp ?_
    intro e l hl i c hc
    rw [Res.mapList_ok_iff] at hl
    obtain ⟨hi, hc'⟩ := List.getElem?_eq_some_iff.1 hc
    have hlen := hl.length_eq
    rw [List.length_range] at hlen
    have := hl.get (i := i) (by simp; omega) hi
    simp only [List.get_eq_getElem, List.getElem_range, hc'] at this
    simp only [Res.bind_ok_iff, SMap.at'_ok_iff, atList_ok_iff] at this
    obtain ⟨ps, h1, p, h2, us, h3, u, h4, h5⟩ := this
    cases h5
    obtain ⟨n, hn, hus⟩ := (hfind _ _).1 h3
    obtain ⟨n', hn', hp⟩ := (hpts _ _).1 h1
    have hk : u32ToInt e.1 = e.1 := by
      have := hid _ (List.mem_of_getElem? hn.1)
      unfold u32ToInt
      rw [if_pos (by omega)]
    rw [hk] at hn'
    exact ⟨⟨n, us, hn, hus, h4⟩, n', hn', ps, hp, h2⟩
  obtain ⟨tags, -, t2, t3⟩ := tags_flatten (R := fun k i c => (∃ n us, FirstWithId ids n k ∧ corners[n]? = some us ∧
    us[i]? = some c.inImage) ∧ b.Point k i c.inTarget) hinc hpair
  exact ⟨tags, t2, t3⟩

/-- C217 for ChArUco boards: the correspondences come in the order of the ids of the intersections. -/
theorem C217_charuco (board : List V3) (hbd : board.length ≤ 2 ^ 32) (markers : Nat) (hm : markers ≠ 0) (ids : List Int)
    (corners : List V2) (hlen : corners.length = ids.length) (hn : ids.length < 2 ^ 31)
    (hid : ∀ i ∈ ids, 0 ≤ i ∧ i < 2 ^ 31) (cs : List Corr2)
    (h : (charucoFeatures markers ids.length corners ids).bind (fun fs => (charucoPoints board).bind fun m =>
      charucoCorrespondences m fs) = .ok cs) :
    InIdOrder (fun k _ u => ∃ n, FirstWithId ids n k ∧ corners[n]? = some u) (fun k _ p => board[k]? = some p) cs := by
  obtain ⟨fs, hfs, -, hfind⟩ := C98_charuco markers hm ids corners hlen hn hid
  have hinc := charucoFeatures_increasing hfs
  rw [hfs, Res.ok_bind] at h
  obtain ⟨m, hm, hpts⟩ := charucoPoints_spec board hbd
  rw [hm, Res.ok_bind] at h
  unfold charucoCorrespondences at h
  rw [Res.mapList_ok_iff] at h
  refine ⟨fs.map fun e => (e.1, 0), ?_, ?_⟩
  · rw [List.pairwise_map]
    exact hinc.imp fun h => Or.inl h
  · rw [List.forall₂_map_left_iff]
    refine h.imp ?_
    intro e c hc
    simp only [Res.bind_ok_iff, SMap.at'_ok_iff, atList_ok_iff] at hc
    obtain ⟨p, h1, us, h2, u, h3, h4⟩ := hc
    cases h4
    obtain ⟨n, h5, q, h6, rfl⟩ := (hfind _ _).1 h2
    simp only [List.getElem?_cons_zero, Option.some.injEq] at h3
    subst h3
    exact ⟨⟨n, h5, h6⟩, (hpts _ _).1 h1⟩

/-- The position of a detection in a list. -/
theorem firstWithId_zip {α : Type} {ids : List Int} {pts : List α} (hnd : ids.Nodup) (k : Nat) (us : α) :
    (∃ n, FirstWithId ids n k ∧ pts[n]? = some us) ↔ ((k : Int), us) ∈ ids.zip pts := by
  rw [List.mem_iff_getElem?]
  simp only [List.getElem?_zip_eq_some]
  constructor
  · rintro ⟨n, ⟨h1, -⟩, h2⟩
    exact ⟨n, h1, h2⟩
  · rintro ⟨n, h1, h2⟩
    refine ⟨n, ⟨h1, fun b hb he => ?_⟩, h2⟩
    have := nodup_getElem? hnd he h1
    omega

theorem zip_ids {α : Type} {ids : List Int} {pts : List α} (hlen : pts.length = ids.length) : (ids.zip pts).map Prod.fst = ids :=
  List.map_fst_zip hlen.ge

theorem zip_pts {α : Type} {ids : List Int} {pts : List α} (hlen : pts.length = ids.length) : (ids.zip pts).map Prod.snd = pts :=
  List.map_snd_zip hlen.le

/-- Two lists of the same detections of distinct markers give the same features, so that everything computed from them is the
same. -/
theorem C217_aruco_any_order (ids ids' : List Int) (corners corners' : List (List V2)) (hlen : corners.length = ids.length)
    (hlen' : corners'.length = ids'.length) (hperm : (ids.zip corners).Perm (ids'.zip corners')) (hnd : ids.Nodup)
    (h4 : ∀ l ∈ corners, l.length = 4) (hid : ∀ i ∈ ids, 0 ≤ i ∧ i < 2 ^ 31) :
    ∃ fs, arucoFeatures ids corners = .ok fs ∧ arucoFeatures ids' corners' = .ok fs := by
  have hids : ids.Perm ids' := by simpa only [zip_ids hlen, zip_ids hlen'] using hperm.map Prod.fst
  have hcor : corners.Perm corners' := by simpa only [zip_pts hlen, zip_pts hlen'] using hperm.map Prod.snd
  obtain ⟨fs, hfs, -, hf⟩ := C98_aruco ids corners hlen h4 hid
  obtain ⟨fs', hfs', -, hf'⟩ := C98_aruco ids' corners' hlen' (fun l hl => h4 l (hcor.mem_iff.2 hl))
    (fun i hi => hid i (hids.mem_iff.2 hi))
  have : fs = fs' := by
    refine (arucoFeatures_increasing hfs).eq (arucoFeatures_increasing hfs') fun k us => ?_
    rw [hf, hf', firstWithId_zip hnd, firstWithId_zip (hids.nodup_iff.1 hnd)]
    exact hperm.mem_iff
  exact ⟨fs, hfs, by rw [hfs', this]⟩

theorem C217_charuco_any_order (markers : Nat) (hm : markers ≠ 0) (ids ids' : List Int) (corners corners' : List V2)
    (hlen : corners.length = ids.length) (hlen' : corners'.length = ids'.length)
    (hperm : (ids.zip corners).Perm (ids'.zip corners')) (hnd : ids.Nodup) (hn : ids.length < 2 ^ 31)
    (hid : ∀ i ∈ ids, 0 ≤ i ∧ i < 2 ^ 31) :
    ∃ fs, charucoFeatures markers ids.length corners ids = .ok fs ∧ charucoFeatures markers ids'.length corners' ids' = .ok fs := by
  have hids : ids.Perm ids' := by simpa only [zip_ids hlen, zip_ids hlen'] using hperm.map Prod.fst
  obtain ⟨fs, hfs, -, hf⟩ := C98_charuco markers hm ids corners hlen hn hid
  obtain ⟨fs', hfs', -, hf'⟩ := C98_charuco markers hm ids' corners' hlen' (by rw [← hids.length_eq]; exact hn)
    (fun i hi => hid i (hids.mem_iff.2 hi))
  have hone : ∀ (ids : List Int) (corners : List V2) (hnd : ids.Nodup) (k : Nat) (us : List V2),
      (∃ n, FirstWithId ids n k ∧ ∃ p, corners[n]? = some p ∧ us = [p]) ↔ ∃ p, us = [p] ∧ ((k : Int), p) ∈ ids.zip corners := by
    intro ids corners hnd k us
    constructor
    · rintro ⟨n, h1, p, h2, h3⟩
      exact ⟨p, h3, (firstWithId_zip hnd k p).1 ⟨n, h1, h2⟩⟩
    · rintro ⟨p, h3, h⟩
      obtain ⟨n, h1, h2⟩ := (firstWithId_zip hnd k p).2 h
      exact ⟨n, h1, p, h2, h3⟩
  have : fs = fs' := by
    refine (charucoFeatures_increasing hfs).eq (charucoFeatures_increasing hfs') fun k us => ?_
    rw [hf, hf', hone _ _ hnd, hone _ _ (hids.nodup_iff.1 hnd)]
    simp only [hperm.mem_iff]
  exact ⟨fs, hfs, by rw [hfs', this]⟩

/-! ### Concrete cases -/

example : ∃ fs, arucoFeatures [7, 3] [[⟨0, 0⟩, ⟨1, 0⟩, ⟨1, 1⟩, ⟨0, 1⟩], [⟨5, 0⟩, ⟨6, 0⟩, ⟨6, 1⟩, ⟨5, 1⟩]] = .ok fs ∧
    arucoFeatures [3, 7] [[⟨5, 0⟩, ⟨6, 0⟩, ⟨6, 1⟩, ⟨5, 1⟩], [⟨0, 0⟩, ⟨1, 0⟩, ⟨1, 1⟩, ⟨0, 1⟩]] = .ok fs :=
  C217_aruco_any_order _ _ _ _ rfl rfl (.swap _ _ _) (by simp) (by simp) (by simp)

example : ∃ cs, (charucoFeatures 4 2 [⟨10, 20⟩, ⟨30, 40⟩] [1, 0]).bind (fun fs => (charucoPoints [⟨0, 0, 0⟩, ⟨1, 0, 0⟩]).bind fun m =>
      charucoCorrespondences m fs) = .ok cs ∧
    InIdOrder (fun k _ u => ∃ n, FirstWithId [1, 0] n k ∧ ([⟨10, 20⟩, ⟨30, 40⟩] : List V2)[n]? = some u)
      (fun k _ p => ([⟨0, 0, 0⟩, ⟨1, 0, 0⟩] : List V3)[k]? = some p) cs := by
  obtain ⟨fs, cs, h1, h2, -⟩ := C98_charuco_pairs [⟨0, 0, 0⟩, ⟨1, 0, 0⟩] (by simp) 4 (by simp) [1, 0] (by simp)
    [⟨10, 20⟩, ⟨30, 40⟩] rfl (by simp)
  have h : (charucoFeatures 4 2 [⟨10, 20⟩, ⟨30, 40⟩] [1, 0]).bind (fun fs => (charucoPoints [⟨0, 0, 0⟩, ⟨1, 0, 0⟩]).bind fun m =>
      charucoCorrespondences m fs) = .ok cs := by
    have h1' : charucoFeatures 4 2 [⟨10, 20⟩, ⟨30, 40⟩] [1, 0] = .ok fs := h1
    rw [h1', Res.ok_bind, h2]
  exact ⟨cs, h, C217_charuco [⟨0, 0, 0⟩, ⟨1, 0, 0⟩] (by simp) 4 (by simp) [1, 0] [⟨10, 20⟩, ⟨30, 40⟩] rfl (by simp) (by simp) cs h⟩

end RCT
