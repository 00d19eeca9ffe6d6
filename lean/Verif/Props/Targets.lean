import Verif.Model.Targets
import Verif.Spec.Targets
import Verif.Lemmas.Grid
import Verif.Lemmas.Maps

/-!
# C66, C70: target points and correspondences by feature id
-/

namespace RCT

open Spec

/-! ## Circle grid points -/

theorem createPoints_eq (t : CircleTarget) (h : t.rows + 1 < 2 ^ 32) :
    t.createPoints = gridList t.rows t.cols fun r c =>
      (⟨(c : ℝ) * t.spacing, ((t.rows - 1 - r : Nat) : ℝ) * t.spacing, 0⟩ : V3) := by
  unfold CircleTarget.createPoints gridList
  rw [Nat.mod_eq_of_lt h, Nat.add_sub_cancel, List.flatMap_map]
  congr 1
  funext r
  congr 1
  funext c
  have : t.rows - (r + 1) = t.rows - 1 - r := by omega
  rw [this]

/- C66, full statement: for every number of rows and columns the list has rows × cols points, point r*cols + c is at
(c * spacing, (rows - 1 - r) * spacing, 0), the points are pairwise distinct for a non-zero spacing and the origin is the
first point of the last row. Missing: rows = 2^32 - 1, where the loop bound `rows + 1` wraps to zero
(`C66_negation`). -/
theorem C66_partial (t : CircleTarget) (h : t.rows + 1 < 2 ^ 32) :
    t.createPoints.length = t.rows * t.cols ∧
    (∀ r c : Nat, r < t.rows → c < t.cols →
      t.createPoints[r * t.cols + c]? = some ⟨c * t.spacing, ((t.rows : ℝ) - 1 - r) * t.spacing, 0⟩) ∧
    (t.spacing ≠ 0 → t.createPoints.Nodup) ∧
    (0 < t.rows → 0 < t.cols → t.createPoints[t.rows * t.cols - t.cols]? = some 0) := by
  have hcast : ∀ r : Nat, r < t.rows → ((t.rows - 1 - r : Nat) : ℝ) = (t.rows : ℝ) - 1 - r := by
    intro r hr
    have : t.rows - 1 - r = t.rows - (r + 1) := by omega
    rw [this, Nat.cast_sub (by omega)]; push_cast; ring
  rw [createPoints_eq t h]
  refine ⟨gridList_length _ _ _, ?_, ?_, ?_⟩
  · intro r c hr hc
    rw [gridList_get _ _ _ r c hr hc, hcast r hr]
  · intro hs
    apply gridList_nodup
    intro r c r' c' hr hc hr' hc' he
    simp only [V3.mk.injEq, and_true] at he
    obtain ⟨h1, h2⟩ := he
    have e1 := mul_right_cancel₀ hs h1
    have e2 := mul_right_cancel₀ hs h2
    have e1' : c = c' := by exact_mod_cast e1
    have e2' : t.rows - 1 - r = t.rows - 1 - r' := by exact_mod_cast e2
    exact ⟨by omega, e1'⟩
  · intro h1 h2
    have e : t.rows * t.cols - t.cols = (t.rows - 1) * t.cols + 0 := by
      rw [Nat.add_zero, Nat.sub_mul, Nat.one_mul]
    rw [e, gridList_get _ _ _ _ _ (by omega) h2]
    simp only [Nat.sub_self, Nat.cast_zero, zero_mul]
    rfl

example : ∃ t : CircleTarget, t.rows + 1 < 2 ^ 32 ∧ 0 < t.rows ∧ 0 < t.cols ∧ t.spacing ≠ 0 :=
  ⟨⟨5, 7, 0.02⟩, by norm_num, by norm_num, by norm_num, by norm_num⟩

/-- With the largest `unsigned` number of rows the target has no points at all. -/
theorem C66_negation (cols : Nat) (spacing : ℝ) (hc : 0 < cols) :
    (CircleTarget.mk (2 ^ 32 - 1) cols spacing).createPoints.length = 0 ∧ 0 < (2 ^ 32 - 1) * cols := by
  constructor
  · simp [CircleTarget.createPoints]
  · omega

/-- Distinct grid positions are at least `|spacing|` apart: the target is a grid, not only a set of distinct points. -/
theorem C66_distance (t : CircleTarget) (h : t.rows + 1 < 2 ^ 32) (i j : Nat) (p q : V3) (hij : i ≠ j)
    (hp : t.createPoints[i]? = some p) (hq : t.createPoints[j]? = some q) :
    t.spacing ^ 2 ≤ (p - q).normSq := by
  have hl := (C66_partial t h).1
  have hi : i < t.rows * t.cols := by
    rw [← hl]; exact (List.getElem?_eq_some_iff.1 hp).1
  have hj : j < t.rows * t.cols := by
    rw [← hl]; exact (List.getElem?_eq_some_iff.1 hq).1
  obtain ⟨r, c, hr, hc, rfl⟩ := grid_index hi
  obtain ⟨r', c', hr', hc', rfl⟩ := grid_index hj
  have h2 := (C66_partial t h).2.1
  rw [h2 r c hr hc] at hp
  rw [h2 r' c' hr' hc'] at hq
  cases hp; cases hq
  have key : (1 : ℝ) ≤ ((c : ℝ) - c') ^ 2 + ((r : ℝ) - r') ^ 2 := by
    have hz : (1 : ℤ) ≤ ((c : ℤ) - c') ^ 2 + ((r : ℤ) - r') ^ 2 := by
      by_cases hcc : c = c'
      · have hrr : r ≠ r' := fun e => hij (by rw [e, hcc])
        have : ((r : ℤ) - r') ≠ 0 := by omega
        have := sq_pos_of_ne_zero this
        have := sq_nonneg ((c : ℤ) - c')
        omega
      · have : ((c : ℤ) - c') ≠ 0 := by omega
        have := sq_pos_of_ne_zero this
        have := sq_nonneg ((r : ℤ) - r')
        omega
    exact_mod_cast hz
  simp only [V3.normSq, V3.dot, V3.sub_x, V3.sub_y, V3.sub_z]
  nlinarith [mul_le_mul_of_nonneg_right key (sq_nonneg t.spacing)]

/-! ## Pairing by id -/

theorem SMap.find_of_mem {K V : Type} [DecidableEq K] {m : SMap K V} (hm : (m.map Prod.fst).Nodup) {k : K} {v : V}
    (h : (k, v) ∈ m) : m.find k = some v := by
  unfold SMap.find
  induction m with
  | nil => simp at h
  | cons e m ih =>
    obtain ⟨a, b⟩ := e
    simp only [List.map_cons, List.nodup_cons] at hm
    rcases List.mem_cons.1 h with h' | h'
    · cases h'; simp
    · have hne : k ≠ a := by
        rintro rfl
        exact hm.1 (List.mem_map.2 ⟨(k, v), h', rfl⟩)
      have hb : (k == a) = false := by simp [hne]
      rw [List.lookup, hb]
      exact ih hm.2 h'

theorem SMap.mem_of_find {K V : Type} [DecidableEq K] {m : SMap K V} {k : K} {v : V}
    (h : m.find k = some v) : (k, v) ∈ m := by
  unfold SMap.find at h
  induction m with
  | nil => simp at h
  | cons e m ih =>
    obtain ⟨a, b⟩ := e
    by_cases hk : k = a
    · subst hk; simp at h; subst h; simp
    · have hb : (k == a) = false := by simp [hk]
      rw [List.lookup, hb] at h
      exact List.mem_cons_of_mem _ (ih h)

theorem SMap.at'_ok_iff {K V : Type} [DecidableEq K] {m : SMap K V} {k : K} {v : V} :
    SMap.at' m k = .ok v ↔ m.find k = some v := by
  unfold SMap.at'
  cases m.find k <;> simp

theorem SMap.find_place {K V : Type} [DecidableEq K] [LT K] [DecidableLT K] (m : SMap K V) (k : K) (v : V)
    (hf : m.find k = none) (k' : K) : (SMap.place k v m).find k' = if k' = k then some v else m.find k' := by
  unfold SMap.find at *
  induction m with
  | nil =>
    by_cases hk : k' = k
    · simp [SMap.place, List.lookup, hk]
    · have hb : (k' == k) = false := by simp [hk]
      simp [SMap.place, List.lookup, hk, hb]
  | cons e m ih =>
    have he : (k == e.1) = false := by
      cases h : k == e.1 with
      | false => rfl
      | true => simp [List.lookup, h] at hf
    have hm : List.lookup k m = none := by simpa [List.lookup, he] using hf
    unfold SMap.place
    split
    · by_cases hk : k' = k
      · simp [hk, List.lookup]
      · have hb : (k' == k) = false := by simp [hk]
        simp [hk, List.lookup, hb]
    · by_cases hk : k' = e.1
      · have : k' ≠ k := by
          rintro rfl
          simp [hk] at he
        have hb : (k' == e.1) = true := by simp [hk]
        simp [this, List.lookup, hb]
      · have hb : (k' == e.1) = false := by simp [hk]
        simpa [List.lookup, hb] using ih hm

theorem SMap.find_emplace {K V : Type} [DecidableEq K] [LT K] [DecidableLT K] (m : SMap K V) (k : K) (v : V) (k' : K) :
    (m.emplace k v).find k' = if k' = k then some ((m.find k).getD v) else m.find k' := by
  unfold SMap.emplace
  cases hf : m.find k with
  | some w =>
    simp only [Option.getD_some]
    by_cases hk : k' = k
    · subst hk; simp [hf]
    · simp [hk]
  | none =>
    simp only [Option.getD_none]
    exact SMap.find_place m k v hf k'

theorem atList_ok_iff {α : Type _} {l : List α} {i : Nat} {a : α} : Res.atList l i = .ok a ↔ l[i]? = some a := by
  unfold Res.atList
  cases l[i]? <;> simp

theorem idxList_ok_iff {α : Type _} {l : List α} {i : Nat} {a : α} : Res.idxList l i = .ok a ↔ l[i]? = some a := by
  unfold Res.idxList
  cases l[i]? <;> simp

theorem mapList_returns {α β : Type _} {f : α → Res β} {l : List α} (h : ∀ a ∈ l, ∃ b, f a = .ok b) :
    ∃ bs, Res.mapList f l = .ok bs := by
  induction l with
  | nil => exact ⟨[], rfl⟩
  | cons a l ih =>
    obtain ⟨b, hb⟩ := h a (by simp)
    obtain ⟨bs, hbs⟩ := ih fun a ha => h a (by simp [ha])
    exact ⟨b :: bs, by simp [Res.mapList, hb, hbs]⟩

/-- A call that returns or throws `std::out_of_range`. -/
def OkOrRange {α : Type _} (r : Res α) : Prop := (∃ a, r = .ok a) ∨ r = .throw .outOfRange

theorem OkOrRange.ok {α : Type _} (a : α) : OkOrRange (.ok a) := .inl ⟨a, rfl⟩

theorem OkOrRange.bind {α β : Type _} {r : Res α} {f : α → Res β} (h : OkOrRange r) (hf : ∀ a, OkOrRange (f a)) :
    OkOrRange (r.bind f) := by
  rcases h with ⟨a, rfl⟩ | rfl
  · exact hf a
  · exact .inr rfl

theorem OkOrRange.mapList {α β : Type _} {f : α → Res β} (l : List α) (h : ∀ a ∈ l, OkOrRange (f a)) :
    OkOrRange (Res.mapList f l) := by
  induction l with
  | nil => exact .ok _
  | cons a l ih =>
    exact .bind (h a (by simp)) fun b => .bind (ih fun a ha => h a (by simp [ha])) fun bs => .ok _

theorem OkOrRange.at' {K V : Type} [DecidableEq K] (m : SMap K V) (k : K) : OkOrRange (SMap.at' m k) := by
  unfold SMap.at'
  cases m.find k
  · exact .inr rfl
  · exact .ok _

theorem OkOrRange.atList {α : Type _} (l : List α) (i : Nat) : OkOrRange (Res.atList l i) := by
  unfold Res.atList
  cases l[i]?
  · exact .inr rfl
  · exact .ok _

/-- Pairings of the single features make a pairing of all of them. -/
theorem Spec.PairedById.flatten {point : Nat → Nat → V3 → Prop} {rel : Nat × List V2 → List Corr2 → Prop}
    {fs : TargetFeatures} {ls : List (List Corr2)} (h : List.Forall₂ rel fs ls)
    (hone : ∀ e ∈ fs, ∀ l, rel e l → l.length = e.2.length ∧
      ∀ (i : Nat) (c : Corr2), l[i]? = some c → e.2[i]? = some c.inImage ∧ point e.1 i c.inTarget) :
    PairedById point fs ls.flatten := by
  induction h with
  | nil => exact ⟨rfl, by simp, by simp⟩
  | cons hd tl ih =>
    rename_i e l gs' ls'
    obtain ⟨hlen, hpair⟩ := hone e (by simp) l hd
    have ih := ih fun e he => hone e (List.mem_cons_of_mem _ he)
    refine ⟨?_, ?_, ?_⟩
    · simp only [List.flatten_cons, List.length_append, List.map_cons, List.sum_cons, ih.count, hlen]
    · intro c hc
      rw [List.flatten_cons, List.mem_append] at hc
      rcases hc with hc | hc
      · obtain ⟨i, hi⟩ := List.getElem?_of_mem hc
        obtain ⟨h1, h2⟩ := hpair i c hi
        exact ⟨e.1, e.2, by simp, i, h1, h2⟩
      · obtain ⟨k, us, hk, hi⟩ := ih.sound c hc
        exact ⟨k, us, List.mem_cons_of_mem _ hk, hi⟩
    · intro k us hk i u hu
      rcases List.mem_cons.1 hk with hk | hk
      · subst hk
        have hi : i < l.length := by rw [hlen]; exact (List.getElem?_eq_some_iff.1 hu).1
        have hc : l[i]? = some l[i] := by simp [hi]
        obtain ⟨h1, h2⟩ := hpair i _ hc
        refine ⟨l[i], by simp, ?_, h2⟩
        rw [hu] at h1; exact (Option.some.inj h1).symm
      · obtain ⟨c, hc, h1, h2⟩ := ih.complete k us hk i u hu
        exact ⟨c, by simp [hc], h1, h2⟩

/-- What OpenCV guarantees about a grid board: one list of object points per marker, distinct non-negative ids. -/
structure ArucoBoard.WF (b : ArucoBoard) : Prop where
  length : b.objPoints.length = b.ids.length
  nodup : b.ids.Nodup
  nonneg : ∀ i ∈ b.ids, 0 ≤ i

/-- Point `i` of marker `k` of a board. -/
def ArucoBoard.Point (b : ArucoBoard) (k i : Nat) (p : V3) : Prop :=
  ∃ n : Nat, b.ids[n]? = some (k : Int) ∧ ∃ ps, b.objPoints[n]? = some ps ∧ ps[i]? = some p

theorem emplace_fold {K V : Type} [DecidableEq K] [LT K] [DecidableLT K] (key : Nat → K) (val : Nat → V) (n : Nat)
    (hk : ∀ a b, a < n → b < n → key a = key b → a = b) :
    (∀ a, a < n → ((List.range n).foldl (fun m i => SMap.emplace m (key i) (val i)) []).find (key a) = some (val a)) ∧
    (∀ k v, ((List.range n).foldl (fun m i => SMap.emplace m (key i) (val i)) []).find k = some v →
      ∃ a, a < n ∧ key a = k ∧ val a = v) := by
  induction n with
  | zero => simp [SMap.find]
  | succ n ih =>
    obtain ⟨ih1, ih2⟩ := ih fun a b ha hb => hk a b (by omega) (by omega)
    rw [List.range_succ, List.foldl_append]
    simp only [List.foldl_cons, List.foldl_nil]
    generalize (List.range n).foldl (fun m i => SMap.emplace m (key i) (val i)) [] = m at ih1 ih2
    have hnone : m.find (key n) = none := by
      cases hf : m.find (key n) with
      | none => rfl
      | some v =>
        obtain ⟨a, ha, hka, _⟩ := ih2 _ _ hf
        have := hk a n (by omega) (by omega) hka
        omega
    constructor
    · intro a ha
      rw [SMap.find_emplace]
      by_cases hka : key a = key n
      · have := hk a n ha (by omega) hka
        subst this
        simp [hnone]
      · have : a ≠ n := fun e => hka (by rw [e])
        rw [if_neg hka, ih1 a (by omega)]
    · intro k v h
      rw [SMap.find_emplace] at h
      split at h
      · rename_i hkn
        simp only [hnone, Option.getD_none, Option.some.injEq] at h
        exact ⟨n, by omega, hkn.symm, h⟩
      · obtain ⟨a, ha, h1, h2⟩ := ih2 k v h
        exact ⟨a, by omega, h1, h2⟩

theorem nodup_getElem? {α : Type _} {l : List α} (h : l.Nodup) {i j : Nat} {a : α} (hi : l[i]? = some a)
    (hj : l[j]? = some a) : i = j := by
  obtain ⟨h1, e1⟩ := List.getElem?_eq_some_iff.1 hi
  obtain ⟨h2, e2⟩ := List.getElem?_eq_some_iff.1 hj
  exact (List.Nodup.getElem_inj_iff h).1 (by rw [e1, e2])

/-- The target of a proper board is built and maps each marker id to its own points. -/
theorem arucoPoints_spec (b : ArucoBoard) (hb : b.WF) :
    ∃ m, arucoPoints b = .ok m ∧
      ∀ k ps, m.find k = some ps ↔ ∃ n : Nat, b.ids[n]? = some k ∧ b.objPoints[n]? = some ps := by
  have hstep : ∀ (m : SMap Int (List V3)), ∀ i ∈ List.range b.ids.length,
      ((Res.idxList b.objPoints i).bind fun pts =>
        (Res.idxList b.ids i).bind fun id => Res.ok (m.emplace id pts)) =
      .ok (m.emplace ((b.ids[i]?).getD 0) ((b.objPoints[i]?).getD [])) := by
    intro m i hi
    have hi := List.mem_range.1 hi
    have h1 : b.ids[i]? = some b.ids[i] := by simp [hi]
    have hi' : i < b.objPoints.length := by rw [hb.length]; exact hi
    have h2 : b.objPoints[i]? = some b.objPoints[i] := by simp [hi']
    simp [Res.idxList, h1, h2]
  refine ⟨_, Res.foldList_ok hstep, ?_⟩
  obtain ⟨h1, h2⟩ := emplace_fold (fun i => (b.ids[i]?).getD 0) (fun i => (b.objPoints[i]?).getD []) b.ids.length (by
    intro i j hi hj hij
    have e1 : b.ids[i]? = some b.ids[i] := by simp [hi]
    have e2 : b.ids[j]? = some b.ids[j] := by simp [hj]
    simp only [e1, e2, Option.getD_some] at hij
    exact (List.Nodup.getElem_inj_iff hb.nodup).1 hij)
  intro k ps
  constructor
  · intro h
    obtain ⟨a, ha, hk, hv⟩ := h2 k ps h
    have e1 : b.ids[a]? = some b.ids[a] := by simp [ha]
    have ha' : a < b.objPoints.length := by rw [hb.length]; exact ha
    have e2 : b.objPoints[a]? = some b.objPoints[a] := by simp [ha']
    refine ⟨a, ?_, ?_⟩
    · rw [e1, Option.getD_some] at hk; rw [e1, hk]
    · rw [e2, Option.getD_some] at hv; rw [e2, hv]
  · rintro ⟨n, hn, hp⟩
    have := h1 n (List.getElem?_eq_some_iff.1 hn).1
    rw [hn, hp] at this
    exact this

theorem u32ToInt_eq {b : ArucoBoard} (hb : b.WF) {k n : Nat} (hk : k < 2 ^ 32)
    (h : b.ids[n]? = some (u32ToInt k)) : u32ToInt k = k := by
  have h0 := hb.nonneg _ (List.mem_of_getElem? h)
  unfold u32ToInt at *
  split
  · rfl
  · rename_i h1
    rw [if_neg h1] at h0
    omega

/-- C70 for ArUco grid targets, pairs: a returned set of correspondences pairs every detected corner with the board
corner of the same marker and number. -/
theorem C70_aruco (b : ArucoBoard) (hb : b.WF) (fs : TargetFeatures) (hf : (fs.map Prod.fst).Nodup)
    (hid : ∀ e ∈ fs, e.1 < 2 ^ 32) (cs : List Corr2)
    (h : (arucoPoints b).bind (fun m => arucoCorrespondences m fs) = .ok cs) :
    PairedById b.Point fs cs := by
  obtain ⟨m, hm, hfind⟩ := arucoPoints_spec b hb
  rw [hm, Res.ok_bind] at h
  unfold arucoCorrespondences at h
  obtain ⟨ls, hls, hcs⟩ := (Res.bind_ok_iff _ _ _).1 h
  cases hcs
  rw [Res.mapList_ok_iff] at hls
  -- the correspondences of one feature
  have hone : ∀ e ∈ fs, ∀ l, Res.mapList (fun i =>
      (SMap.at' m (u32ToInt e.1)).bind fun ps =>
      (Res.atList ps i).bind fun p =>
      (SMap.at' fs e.1).bind fun us =>
      (Res.atList us i).bind fun u => Res.ok ({ inImage := u, inTarget := p } : Corr2)) (List.range e.2.length) = .ok l →
      l.length = e.2.length ∧
      ∀ (i : Nat) (c : Corr2), l[i]? = some c → e.2[i]? = some c.inImage ∧ b.Point e.1 i c.inTarget := by
    intro e he l hl
    refine ⟨by rw [Res.mapList_ok_length hl, List.length_range], ?_⟩
    intro i c hc
    rw [Res.mapList_ok_iff] at hl
    obtain ⟨hi, hc'⟩ := List.getElem?_eq_some_iff.1 hc
    have hlen := hl.length_eq
    rw [List.length_range] at hlen
    have hi' : i < e.2.length := by omega
    have := hl.get (i := i) (by simpa using hi') hi
    simp only [List.get_eq_getElem, List.getElem_range, hc'] at this
    simp only [Res.bind_ok_iff, SMap.at'_ok_iff, atList_ok_iff] at this
    obtain ⟨ps, h1, p, h2, us, h3, u, h4, h5⟩ := this
    cases h5
    have h6 : fs.find e.1 = some e.2 := SMap.find_of_mem hf he
    rw [h6] at h3
    cases h3
    obtain ⟨n, hn, hp⟩ := (hfind _ _).1 h1
    rw [u32ToInt_eq hb (hid e he) hn] at hn
    exact ⟨h4, n, hn, ps, hp, h2⟩
  exact PairedById.flatten hls fun e he l hl => hone e he l hl

/-- C70 for ArUco grid targets, unknown ids: a detected marker the board does not have raises `std::out_of_range`, unless
another exception comes first; correspondences are not returned. -/
theorem C70_aruco_unknown (b : ArucoBoard) (hb : b.WF) (fs : TargetFeatures) (hf : (fs.map Prod.fst).Nodup)
    (hid : ∀ e ∈ fs, e.1 < 2 ^ 32) (k : Nat) (us : List V2) (hk : (k, us) ∈ fs) (hu : us ≠ []) (hno : (k : Int) ∉ b.ids) :
    (arucoPoints b).bind (fun m => arucoCorrespondences m fs) = .throw .outOfRange := by
  obtain ⟨m, hm, hfind⟩ := arucoPoints_spec b hb
  rw [hm, Res.ok_bind]
  have hne : ∀ cs, arucoCorrespondences m fs ≠ .ok cs := by
    intro cs hcs
    have := C70_aruco b hb fs hf hid cs (by rw [hm, Res.ok_bind, hcs])
    cases us with
    | nil => exact hu rfl
    | cons u us =>
      obtain ⟨c, _, _, n, hn, _⟩ := this.complete k (u :: us) hk 0 u rfl
      exact hno (List.mem_of_getElem? hn)
  have hor : OkOrRange (arucoCorrespondences m fs) := by
    unfold arucoCorrespondences
    refine OkOrRange.bind (OkOrRange.mapList _ fun e _ => OkOrRange.mapList _ fun i _ => ?_) fun _ => .ok _
    exact .bind (.at' _ _) fun _ => .bind (.atList _ _) fun _ => .bind (.at' _ _) fun _ => .bind (.atList _ _) fun _ =>
      .ok _
  rcases hor with ⟨cs, h⟩ | h
  · exact absurd h (hne cs)
  · exact h

/-- C70 for ArUco grid targets, success: if all detected markers are on the board, with no more corners than the board
has for them, the correspondences are returned. -/
theorem C70_aruco_returns (b : ArucoBoard) (hb : b.WF) (hint : ∀ i ∈ b.ids, i < 2 ^ 31) (fs : TargetFeatures)
    (hf : (fs.map Prod.fst).Nodup)
    (hknown : ∀ e ∈ fs, ∃ n : Nat, b.ids[n]? = some (e.1 : Int) ∧ ∃ ps, b.objPoints[n]? = some ps ∧
      e.2.length ≤ ps.length) :
    ∃ cs, (arucoPoints b).bind (fun m => arucoCorrespondences m fs) = .ok cs := by
  obtain ⟨m, hm, hfind⟩ := arucoPoints_spec b hb
  rw [hm, Res.ok_bind]
  unfold arucoCorrespondences
  have : ∃ ls, Res.mapList (fun e : Nat × List V2 =>
      Res.mapList (fun i =>
        (SMap.at' m (u32ToInt e.1)).bind fun ps =>
        (Res.atList ps i).bind fun p =>
        (SMap.at' fs e.1).bind fun us =>
        (Res.atList us i).bind fun u => Res.ok ({ inImage := u, inTarget := p } : Corr2)) (List.range e.2.length)) fs
      = .ok ls := by
    apply mapList_returns
    intro e he
    apply mapList_returns
    intro i hi
    have hi := List.mem_range.1 hi
    obtain ⟨n, hn, ps, hps, hle⟩ := hknown e he
    have hk : u32ToInt e.1 = e.1 := by
      have := hint _ (List.mem_of_getElem? hn)
      unfold u32ToInt; rw [if_pos (by omega)]
    have h1 : SMap.at' m (u32ToInt e.1) = .ok ps := SMap.at'_ok_iff.2 ((hfind _ _).2 ⟨n, by rw [hk]; exact hn, hps⟩)
    have h2 : Res.atList ps i = .ok ps[i] := atList_ok_iff.2 (by simp)
    have h3 : SMap.at' fs e.1 = .ok e.2 := SMap.at'_ok_iff.2 (SMap.find_of_mem hf he)
    have h4 : Res.atList e.2 i = .ok e.2[i] := atList_ok_iff.2 (by simp)
    exact ⟨_, by rw [h1, Res.ok_bind, h2, Res.ok_bind, h3, Res.ok_bind, h4, Res.ok_bind]⟩
  obtain ⟨ls, hls⟩ := this
  exact ⟨ls.flatten, by rw [hls, Res.ok_bind]⟩

/-- A board with two markers, a detection of the second and one of an unknown marker. -/
def exBoard : ArucoBoard where
  ids := [3, 7]
  objPoints := [[⟨0, 0, 0⟩, ⟨1, 0, 0⟩, ⟨1, 1, 0⟩, ⟨0, 1, 0⟩], [⟨2, 0, 0⟩, ⟨3, 0, 0⟩, ⟨3, 1, 0⟩, ⟨2, 1, 0⟩]]

theorem exBoard_wf : exBoard.WF := ⟨rfl, by decide, by decide⟩

example : exBoard.WF ∧ ∃ fs : TargetFeatures, (fs.map Prod.fst).Nodup ∧ (∀ e ∈ fs, e.1 < 2 ^ 32) ∧
    ∃ cs, (arucoPoints exBoard).bind (fun m => arucoCorrespondences m fs) = .ok cs ∧ cs.length = 4 := by
  have hf : (([(7, [⟨0, 0⟩, ⟨4, 0⟩, ⟨4, 4⟩, ⟨0, 4⟩])] : TargetFeatures).map Prod.fst).Nodup := by simp
  obtain ⟨cs, h⟩ := C70_aruco_returns exBoard exBoard_wf (by decide) [(7, [⟨0, 0⟩, ⟨4, 0⟩, ⟨4, 4⟩, ⟨0, 4⟩])] hf
    (by simp only [List.mem_singleton, forall_eq]; exact ⟨1, rfl, _, rfl, le_rfl⟩)
  exact ⟨exBoard_wf, _, hf, by simp, cs, h, (C70_aruco exBoard exBoard_wf _ hf (by simp) cs h).count⟩

example : ∃ fs : TargetFeatures, (fs.map Prod.fst).Nodup ∧ (5, [(⟨0, 0⟩ : V2)]) ∈ fs ∧ ((5 : Nat) : Int) ∉ exBoard.ids :=
  ⟨[(5, [⟨0, 0⟩])], by simp, by simp, by decide⟩

/-! ### ChArUco -/

theorem charucoPoints_spec (corners : List V3) (hl : corners.length ≤ 2 ^ 32) :
    ∃ m, charucoPoints corners = .ok m ∧ ∀ k p, m.find k = some p ↔ corners[k]? = some p := by
  have hstep : ∀ (m : SMap Nat V3), ∀ i ∈ List.range corners.length,
      ((Res.atList corners i).bind fun p => Res.ok (m.emplace (i % 2 ^ 32) p)) =
      .ok (m.emplace (i % 2 ^ 32) ((corners[i]?).getD 0)) := by
    intro m i hi
    have hi := List.mem_range.1 hi
    have h1 : corners[i]? = some corners[i] := by simp [hi]
    simp [Res.atList, h1]
  refine ⟨_, Res.foldList_ok hstep, ?_⟩
  obtain ⟨h1, h2⟩ := emplace_fold (fun i => i % 2 ^ 32) (fun i => (corners[i]?).getD 0) corners.length (by
    intro i j hi hj hij
    rwa [Nat.mod_eq_of_lt (by omega), Nat.mod_eq_of_lt (by omega)] at hij)
  intro k p
  constructor
  · intro h
    obtain ⟨a, ha, hk, hv⟩ := h2 k p h
    rw [Nat.mod_eq_of_lt (by omega)] at hk
    subst hk
    have e1 : corners[a]? = some corners[a] := by simp [ha]
    rw [e1, Option.getD_some] at hv; rw [e1, hv]
  · intro h
    have hk := (List.getElem?_eq_some_iff.1 h).1
    have := h1 k hk
    rw [Nat.mod_eq_of_lt (by omega), h] at this
    exact this

theorem flatten_singletons {α : Type _} (l : List α) : (l.map fun a => [a]).flatten = l := by
  induction l with
  | nil => rfl
  | cons a l ih => simp [ih]

/- C70, full statement: every correspondence joins the image point of feature id k with the target point of id k, the
number of correspondences is the number of detected points, and a feature id the target does not have raises an
exception. Missing for ChArUco targets: a feature with several image points; only its first point is used
(`C70_charuco_negation`). The finders of the library produce one point per feature. -/
theorem C70_charuco_partial (corners : List V3) (hl : corners.length ≤ 2 ^ 32) (fs : TargetFeatures)
    (hf : (fs.map Prod.fst).Nodup) (hone : ∀ e ∈ fs, e.2.length = 1) (cs : List Corr2)
    (h : (charucoPoints corners).bind (fun m => charucoCorrespondences m fs) = .ok cs) :
    PairedById (fun k i p => i = 0 ∧ corners[k]? = some p) fs cs := by
  obtain ⟨m, hm, hfind⟩ := charucoPoints_spec corners hl
  rw [hm, Res.ok_bind] at h
  unfold charucoCorrespondences at h
  rw [Res.mapList_ok_iff] at h
  rw [← flatten_singletons cs]
  have h' : List.Forall₂ (fun (e : Nat × List V2) (l : List Corr2) => ∃ c, ((SMap.at' m e.1).bind fun p =>
      (SMap.at' fs e.1).bind fun us =>
      (Res.atList us 0).bind fun u => Res.ok ({ inImage := u, inTarget := p } : Corr2)) = .ok c ∧ l = [c])
      fs (cs.map fun a => [a]) := by
    rw [List.forall₂_map_right_iff]
    exact h.imp fun a b hab => ⟨b, hab, rfl⟩
  refine PairedById.flatten h' ?_
  rintro e he l ⟨c, hc, rfl⟩
  refine ⟨by simp [hone e he], ?_⟩
  intro i c' hc'
  have hi : i = 0 := by
    have := (List.getElem?_eq_some_iff.1 hc').1
    simpa using this
  subst hi
  simp at hc'
  subst hc'
  simp only [Res.bind_ok_iff, SMap.at'_ok_iff, atList_ok_iff] at hc
  obtain ⟨p, h1, us, h2, u, h3, h4⟩ := hc
  cases h4
  rw [SMap.find_of_mem hf he] at h2
  cases h2
  exact ⟨h3, rfl, (hfind _ _).1 h1⟩

/-- C70 for ChArUco targets, unknown ids. -/
theorem C70_charuco_unknown (corners : List V3) (hl : corners.length ≤ 2 ^ 32) (fs : TargetFeatures)
    (k : Nat) (us : List V2) (hk : (k, us) ∈ fs) (hno : corners.length ≤ k) :
    (charucoPoints corners).bind (fun m => charucoCorrespondences m fs) = .throw .outOfRange := by
  obtain ⟨m, hm, hfind⟩ := charucoPoints_spec corners hl
  rw [hm, Res.ok_bind]
  have hor : OkOrRange (charucoCorrespondences m fs) := by
    unfold charucoCorrespondences
    exact OkOrRange.mapList _ fun e _ => .bind (.at' _ _) fun _ => .bind (.at' _ _) fun _ => .bind (.atList _ _)
      fun _ => .ok _
  rcases hor with ⟨cs, h⟩ | h
  · exfalso
    unfold charucoCorrespondences at h
    rw [Res.mapList_ok_iff] at h
    obtain ⟨i, hi⟩ := List.getElem?_of_mem hk
    obtain ⟨hi1, hi2⟩ := List.getElem?_eq_some_iff.1 hi
    have := h.get (i := i) hi1 (by rw [← h.length_eq]; exact hi1)
    simp only [List.get_eq_getElem, hi2, Res.bind_ok_iff, SMap.at'_ok_iff] at this
    obtain ⟨p, h1, _⟩ := this
    have := (List.getElem?_eq_some_iff.1 ((hfind _ _).1 h1)).1
    omega
  · exact h

/-- C70 for ChArUco targets, success: known ids with at least one image point each. -/
theorem C70_charuco_returns (corners : List V3) (hl : corners.length ≤ 2 ^ 32) (fs : TargetFeatures)
    (hf : (fs.map Prod.fst).Nodup) (hk : ∀ e ∈ fs, e.1 < corners.length ∧ e.2 ≠ []) :
    ∃ cs, (charucoPoints corners).bind (fun m => charucoCorrespondences m fs) = .ok cs ∧ cs.length = fs.length := by
  obtain ⟨m, hm, hfind⟩ := charucoPoints_spec corners hl
  rw [hm, Res.ok_bind]
  have : ∃ cs, charucoCorrespondences m fs = .ok cs := by
    unfold charucoCorrespondences
    apply mapList_returns
    intro e he
    obtain ⟨h1, h2⟩ := hk e he
    have e1 : SMap.at' m e.1 = .ok corners[e.1] := SMap.at'_ok_iff.2 ((hfind _ _).2 (by simp))
    have e2 : SMap.at' fs e.1 = .ok e.2 := SMap.at'_ok_iff.2 (SMap.find_of_mem hf he)
    cases he2 : e.2 with
    | nil => exact absurd he2 h2
    | cons u us =>
      rw [he2] at e2
      exact ⟨_, by rw [e1, Res.ok_bind, e2, Res.ok_bind, Res.atList]; rfl⟩
  obtain ⟨cs, hcs⟩ := this
  exact ⟨cs, hcs, Res.mapList_ok_length hcs⟩

/-- All points of a feature but the first are dropped without notice. -/
theorem C70_charuco_negation (corners : List V3) (hl : corners.length ≤ 2 ^ 32) (fs : TargetFeatures)
    (hf : (fs.map Prod.fst).Nodup) (hk : ∀ e ∈ fs, e.1 < corners.length ∧ e.2 ≠ [])
    (hmany : ∃ e ∈ fs, 2 ≤ e.2.length) :
    ∃ cs, (charucoPoints corners).bind (fun m => charucoCorrespondences m fs) = .ok cs ∧
      cs.length < (fs.map fun e => e.2.length).sum := by
  obtain ⟨cs, h1, h2⟩ := C70_charuco_returns corners hl fs hf hk
  refine ⟨cs, h1, ?_⟩
  rw [h2]
  clear h1 h2 hf hl
  have hpos : ∀ e ∈ fs, 1 ≤ e.2.length := fun e he => List.length_pos_iff.2 (hk e he).2
  have hle : ∀ gs : TargetFeatures, (∀ e ∈ gs, 1 ≤ e.2.length) → gs.length ≤ (gs.map fun e => e.2.length).sum := by
    intro gs hg
    induction gs with
    | nil => simp
    | cons e gs ih =>
      have := ih fun e he => hg e (by simp [he])
      have := hg e (by simp)
      simp only [List.length_cons, List.map_cons, List.sum_cons]
      omega
  clear hk
  induction fs with
  | nil => simp at hmany
  | cons e fs ih =>
    obtain ⟨e', he', h2⟩ := hmany
    simp only [List.length_cons, List.map_cons, List.sum_cons]
    rcases List.mem_cons.1 he' with he' | he'
    · subst he'
      have := hle fs fun e he => hpos e (by simp [he])
      omega
    · have := ih ⟨e', he', h2⟩ fun e he => hpos e (by simp [he])
      have := hpos e (by simp)
      omega

example : ∃ (corners : List V3) (fs : TargetFeatures), corners.length ≤ 2 ^ 32 ∧ (fs.map Prod.fst).Nodup ∧
    (∀ e ∈ fs, e.1 < corners.length ∧ e.2 ≠ []) ∧ (∃ e ∈ fs, 2 ≤ e.2.length) :=
  ⟨[0], [(0, [0, 0])], by norm_num, by simp, by simp, by simp⟩

example : ∃ (corners : List V3) (fs : TargetFeatures), corners.length ≤ 2 ^ 32 ∧ (fs.map Prod.fst).Nodup ∧
    (∀ e ∈ fs, e.2.length = 1) ∧ (∀ e ∈ fs, e.1 < corners.length ∧ e.2 ≠ []) ∧ fs.length = 2 :=
  ⟨[⟨1, 0, 0⟩, 0, 0], [(0, [0]), (2, [0])], by norm_num, by simp, by simp, by simp, by simp⟩

/-! ### Circle grids -/

theorem circleCorrespondences_ok_iff (t : CircleTarget) (fs : TargetFeatures) (cs : List Corr2) :
    t.createCorrespondences fs = .ok cs ↔ cs.length = t.createPoints.length ∧
      ∀ i : Nat, ∀ c, cs[i]? = some c → t.createPoints[i]? = some c.inTarget ∧
        ∃ us, fs.find i = some us ∧ us[0]? = some c.inImage := by
  unfold CircleTarget.createCorrespondences
  simp only
  rw [Res.mapList_ok_iff]
  constructor
  · intro h
    have hlen := h.length_eq
    rw [List.length_range] at hlen
    refine ⟨hlen.symm, ?_⟩
    intro i c hc
    obtain ⟨hi, hc'⟩ := List.getElem?_eq_some_iff.1 hc
    have := h.get (i := i) (by simp only [List.length_range]; omega) hi
    simp only [List.get_eq_getElem, List.getElem_range, hc', Res.bind_ok_iff, SMap.at'_ok_iff, atList_ok_iff] at this
    obtain ⟨p, h1, us, h2, u, h3, h4⟩ := this
    cases h4
    exact ⟨h1, us, h2, h3⟩
  · rintro ⟨hlen, h⟩
    rw [List.forall₂_iff_get]
    refine ⟨by simp [hlen], ?_⟩
    intro i h1 h2
    obtain ⟨a1, us, a2, a3⟩ := h i cs[i] (by simp)
    simp only [List.get_eq_getElem, List.getElem_range, Res.bind_ok_iff, SMap.at'_ok_iff, atList_ok_iff]
    exact ⟨_, a1, us, a2, _, a3, rfl⟩

/- C70 for circle grids. The full statement is above `C70_charuco_partial`. Missing: features with several points, and
sets of features whose number differs from the number of target points; `createCorrespondences` asserts that the numbers
agree, but with assertions disabled extra features are ignored (`C70_circle_negation`). -/
theorem C70_circle_partial (t : CircleTarget) (fs : TargetFeatures) (hf : (fs.map Prod.fst).Nodup)
    (hassert : fs.length = t.createPoints.length) (hone : ∀ e ∈ fs, e.2.length = 1) (cs : List Corr2)
    (h : t.createCorrespondences fs = .ok cs) :
    PairedById (fun k i p => i = 0 ∧ t.createPoints[k]? = some p) fs cs := by
  obtain ⟨hlen, hc⟩ := (circleCorrespondences_ok_iff t fs cs).1 h
  have hsum : (fs.map fun e => e.2.length).sum = fs.length := by
    clear hf hassert h hlen hc
    induction fs with
    | nil => rfl
    | cons e fs ih =>
      have := hone e (by simp)
      have := ih fun e he => hone e (by simp [he])
      simp only [List.map_cons, List.sum_cons, List.length_cons]; omega
  -- every id of the target is a key, and there are as many keys as ids
  have hall : ∀ i, i < fs.length → i ∈ fs.map Prod.fst := by
    intro i hi
    have hi' : i < cs.length := by omega
    obtain ⟨_, us, h2, _⟩ := hc i cs[i] (by simp)
    exact List.mem_map.2 ⟨(i, us), SMap.mem_of_find h2, rfl⟩
  have hperm : (List.range fs.length).Perm (fs.map Prod.fst) := by
    have hsp : (List.range fs.length).Subperm (fs.map Prod.fst) :=
      List.nodup_range.subperm fun i hi => hall i (List.mem_range.1 hi)
    exact hsp.perm_of_length_le (by simp)
  refine ⟨by rw [hsum]; omega, ?_, ?_⟩
  · intro c hcm
    obtain ⟨i, hi⟩ := List.getElem?_of_mem hcm
    obtain ⟨h1, us, h2, h3⟩ := hc i c hi
    exact ⟨i, us, SMap.mem_of_find h2, 0, h3, rfl, h1⟩
  · intro k us hk i u hu
    have hkr : k < fs.length := by
      have : k ∈ List.range fs.length := hperm.mem_iff.2 (List.mem_map.2 ⟨(k, us), hk, rfl⟩)
      exact List.mem_range.1 this
    have hi0 : i = 0 := by
      have h1 := hone _ hk
      have h2 := (List.getElem?_eq_some_iff.1 hu).1
      simp only at h1
      omega
    subst hi0
    have hk' : k < cs.length := by omega
    obtain ⟨h1, us', h2, h3⟩ := hc k cs[k] (by simp)
    rw [SMap.find_of_mem hf hk] at h2
    cases h2
    rw [hu] at h3
    exact ⟨cs[k], by simp, (Option.some.inj h3).symm, rfl, h1⟩

/-- C70 for circle grids, unknown ids: with the asserted number of features, an id outside the target means that one of
the target ids is missing, which raises `std::out_of_range`. -/
theorem C70_circle_unknown (t : CircleTarget) (fs : TargetFeatures) (hf : (fs.map Prod.fst).Nodup)
    (hassert : fs.length = t.createPoints.length) (hone : ∀ e ∈ fs, e.2.length = 1) (k : Nat) (us : List V2)
    (hk : (k, us) ∈ fs) (hno : t.createPoints.length ≤ k) :
    t.createCorrespondences fs = .throw .outOfRange := by
  have hor : OkOrRange (t.createCorrespondences fs) := by
    unfold CircleTarget.createCorrespondences
    exact OkOrRange.mapList _ fun e _ => .bind (.atList _ _) fun _ => .bind (.at' _ _) fun _ => .bind (.atList _ _)
      fun _ => .ok _
  rcases hor with ⟨cs, h⟩ | h
  · have := C70_circle_partial t fs hf hassert hone cs h
    have h1 := hone _ hk
    cases us with
    | nil => simp at h1
    | cons u us =>
      obtain ⟨c, _, _, _, h2⟩ := this.complete k (u :: us) hk 0 u rfl
      have := (List.getElem?_eq_some_iff.1 h2).1
      omega
  · exact h

/-- Without the assertion, features with ids the target does not have are ignored: neither an exception nor a pair. -/
theorem C70_circle_negation (t : CircleTarget) (fs : TargetFeatures)
    (hids : ∀ i, i < t.createPoints.length → ∃ u us, fs.find i = some (u :: us))
    (k : Nat) (vs : List V2) (_hk : (k, vs) ∈ fs) (_hno : t.createPoints.length ≤ k) (hvs : vs ≠ []) :
    ∃ cs, t.createCorrespondences fs = .ok cs ∧ cs.length < (fs.map fun e => e.2.length).sum := by
  have hret : ∃ cs, t.createCorrespondences fs = .ok cs := by
    unfold CircleTarget.createCorrespondences
    apply mapList_returns
    intro i hi
    have hi := List.mem_range.1 hi
    obtain ⟨u, us, hu⟩ := hids i hi
    have e1 : Res.atList t.createPoints i = .ok t.createPoints[i] := atList_ok_iff.2 (by simp)
    have e2 : SMap.at' fs i = .ok (u :: us) := SMap.at'_ok_iff.2 hu
    exact ⟨_, by rw [e1, Res.ok_bind, e2, Res.ok_bind, Res.atList]; rfl⟩
  obtain ⟨cs, hcs⟩ := hret
  refine ⟨cs, hcs, ?_⟩
  rw [((circleCorrespondences_ok_iff t fs cs).1 hcs).1]
  -- the keys 0 … n-1 and k are distinct entries with at least one point each
  have hsub : (k :: List.range t.createPoints.length).Subperm ((fs.filter fun e => e.2 ≠ []).map Prod.fst) := by
    refine List.Nodup.subperm ?_ ?_
    · rw [List.nodup_cons]
      exact ⟨by simp only [List.mem_range]; omega, List.nodup_range⟩
    · intro i hi
      rcases List.mem_cons.1 hi with rfl | hi
      · exact List.mem_map.2 ⟨(i, vs), List.mem_filter.2 ⟨_hk, by simpa using hvs⟩, rfl⟩
      · obtain ⟨u, us, hu⟩ := hids i (List.mem_range.1 hi)
        exact List.mem_map.2 ⟨(i, u :: us), List.mem_filter.2 ⟨SMap.mem_of_find hu, by simp⟩, rfl⟩
  have h1 := hsub.length_le
  simp only [List.length_cons, List.length_range, List.length_map] at h1
  have h2 : (fs.filter fun e => e.2 ≠ []).length ≤ (fs.map fun e => e.2.length).sum := by
    clear * -
    induction fs with
    | nil => simp
    | cons e fs ih =>
      simp only [List.filter_cons, List.map_cons, List.sum_cons]
      by_cases he : e.2 = []
      · simp [he]; simpa using ih
      · have : 1 ≤ e.2.length := List.length_pos_iff.2 he
        simp only [ne_eq, he, not_false_eq_true, decide_true, if_true, List.length_cons]
        simp only [ne_eq] at ih
        omega
  omega

example : ∃ (t : CircleTarget) (fs : TargetFeatures), (fs.map Prod.fst).Nodup ∧ t.createPoints.length = 2 ∧
    (∀ i, i < t.createPoints.length → ∃ u us, fs.find i = some (u :: us)) ∧ (9, [(0 : V2)]) ∈ fs := by
  refine ⟨⟨1, 2, 1⟩, [(0, [0]), (1, [0]), (9, [0])], by simp, ?_, ?_, by simp⟩
  · simp [(C66_partial ⟨1, 2, 1⟩ (by norm_num)).1]
  · rw [(C66_partial ⟨1, 2, 1⟩ (by norm_num)).1]
    intro i hi
    have : i = 0 ∨ i = 1 := by simp only at hi; omega
    rcases this with rfl | rfl
    · exact ⟨0, [], rfl⟩
    · exact ⟨0, [], rfl⟩

end RCT
