import Verif.Spec.Alignment
import Verif.Props.DataSet
import Verif.Props.CorrDataSet
import Verif.Props.MultiTools
import Mathlib.Data.List.Sort
import Mathlib.Tactic.IntervalCases

/-!
# C180: images of several cameras with the same number were recorded together

Full statement: if record `j` of all index files belongs to the same moment, then every wrist pose and every set of
correspondences which the tools for several cameras combine into one observation belong to one moment. This holds if the
same records are readable for all cameras. Otherwise the images behind an unreadable record move up for one camera only,
and images of different moments are combined (`C180_negation…`), without a message if the numbers of images agree.
-/

namespace RCT

open Spec

variable {Img : Type} {C : Codec Img} {fs : FS Img}

theorem FromRecord_unique {path : String} {j : Nat} {e e' : Img × Iso} (h : FromRecord C fs path j e)
    (h' : FromRecord C fs path j e') : e = e' := by
  obtain ⟨root, hr, -, ip, pp, m, y, a1, a2, a3, a4, a5, a6, a7⟩ := h
  obtain ⟨root', hr', -, ip', pp', m', y', b1, b2, b3, b4, b5, b6, b7⟩ := h'
  rw [hr] at hr'
  cases hr'
  rw [a1] at b1; cases b1
  rw [a2] at b2; cases b2
  rw [a3] at b3; cases b3
  rw [a6] at b6; cases b6
  rw [a7] at b7
  injection b7 with b7
  exact Prod.ext (a5.trans b5.symm) b7

theorem mem_readableRecords {path : String} {j : Nat} : j ∈ readableRecords C fs path ↔ ∃ e, FromRecord C fs path j e := by
  unfold readableRecords
  simp only [List.mem_filter, List.mem_range, decide_eq_true_eq]
  refine ⟨fun h => h.2, fun h => ⟨?_, h⟩⟩
  obtain ⟨e, root, hr, hj, -⟩ := h
  unfold recordCount
  rw [hr]
  exact hj

theorem readableRecords_sorted (path : String) : (readableRecords C fs path).Pairwise (· < ·) :=
  List.Pairwise.filter _ List.pairwise_lt_range

/-- Image and pose number `k` of a loaded data set are those of the `k`-th readable record of its index file. -/
theorem loaded_records {path : String} {d : DataSet Img} (h : parseFromFile C fs path = .ok (some d)) :
    List.Forall₂ (FromRecord C fs path) (readableRecords C fs path) (d.images.zip d.poses) ∧
      d.images.length = (readableRecords C fs path).length ∧ d.poses.length = (readableRecords C fs path).length := by
  obtain ⟨root, hr, hl, js, hp, hlt, hf, hall⟩ := C77_aligned C fs path d h
  have hf' : List.Forall₂ (FromRecord C fs path) js (d.images.zip d.poses) := by
    have aux : ∀ (l : List Nat) (es : List (Img × Iso)), (∀ j ∈ l, j < root.size) →
        List.Forall₂ (EntryData C fs root (rootPath path)) l es → List.Forall₂ (FromRecord C fs path) l es := by
      intro l es hl h
      induction h with
      | nil => exact .nil
      | cons h _ ih => exact .cons ⟨root, hr, hl _ (by simp), h⟩ (ih fun j hj => hl j (by simp [hj]))
    exact aux _ _ hlt hf
  have hjs : js = readableRecords C fs path := by
    have hperm : js.Perm (readableRecords C fs path) := by
      rw [List.perm_ext_iff_of_nodup (hp.imp fun h => Nat.ne_of_lt h)
        ((readableRecords_sorted path).imp fun h => Nat.ne_of_lt h)]
      intro j
      rw [mem_readableRecords]
      constructor
      · intro hj
        obtain ⟨e, -, he⟩ := Forall₂.mem_left hf' hj
        exact ⟨e, he⟩
      · rintro ⟨e, root', hr', hj, he⟩
        rw [hr] at hr'
        cases hr'
        exact hall j hj ⟨e, he⟩
    exact hperm.eq_of_pairwise (le := (· < ·)) (fun a b _ _ h1 h2 => by omega) hp (readableRecords_sorted path)
  rw [hjs] at hf'
  have hlen := hf'.length_eq
  rw [List.length_zip, hl, Nat.min_self] at hlen
  exact ⟨hf', by omega, by omega⟩

theorem loaded_at {path : String} {d : DataSet Img} (h : parseFromFile C fs path = .ok (some d)) {k j : Nat}
    (hj : (readableRecords C fs path)[k]? = some j) :
    ∃ m T, FromRecord C fs path j (m, T) ∧ d.images[k]? = some m ∧ d.poses[k]? = some T := by
  obtain ⟨hf, h1, h2⟩ := loaded_records h
  obtain ⟨hk, hj'⟩ := List.getElem?_eq_some_iff.1 hj
  have hk' : k < (d.images.zip d.poses).length := by rw [← hf.length_eq]; exact hk
  have := List.forall₂_iff_get.1 hf
  have h3 := this.2 k hk hk'
  simp only [List.get_eq_getElem, List.getElem_zip] at h3
  rw [hj'] at h3
  exact ⟨_, _, h3, by simp, by simp⟩

variable {find : Img → Res TargetFeatures} {create : TargetFeatures → Res (List Corr2)}
    {draw : Img → TargetFeatures → Res Unit}

/-- The table built from data sets with equally many readable records. -/
theorem loaded_table {paths : List String} {sets : List (DataSet Img)} (hload : Loaded C fs paths sets) {N : Nat}
    (hN : ∀ p ∈ paths, (readableRecords C fs p).length = N) {junk : Nat → Nat → Nat} {s : CorrDataSet}
    (hs : buildCorrDataSet find create draw junk sets = .ok s) :
    s.rows = paths.length ∧ s.cols = N ∧ ProperFlags s ∧
      ∀ (c : Nat) p (k j : Nat), paths[c]? = some p → (readableRecords C fs p)[k]? = some j →
        (s.mask c k = 1 ↔ ∃ cs, SeenIn C fs find create draw p j cs) ∧ (s.mask c k = 1 → SeenIn C fs find create draw p j (s.corr c k)) := by
  have hlen : paths.length = sets.length := hload.length_eq
  have himg : ∀ ds ∈ sets, ds.images.length = N := by
    intro ds hds
    obtain ⟨p, hp, h⟩ := Forall₂.mem_right hload hds
    rw [(loaded_records h).2.1, hN p hp]
  obtain ⟨first, hf, hr, hc, -, hg⟩ := corrTable_ok hs
  have hcn : s.cols = N := by rw [hc]; exact himg first (List.mem_of_getElem? hf)
  have hget : ∀ (c : Nat) p, paths[c]? = some p → ∃ ds, sets[c]? = some ds ∧ parseFromFile C fs p = .ok (some ds) := by
    intro c p hp
    obtain ⟨hcl, hp'⟩ := List.getElem?_eq_some_iff.1 hp
    have h := (List.forall₂_iff_get.1 hload).2 c hcl (by omega)
    simp only [List.get_eq_getElem] at h
    rw [hp'] at h
    exact ⟨_, by simp, h⟩
  refine ⟨by omega, hcn, ?_, ?_⟩
  · intro c i hcl hi
    have hcl' : c < sets.length := by omega
    have hds : sets[c]? = some sets[c] := by simp
    have hl := himg sets[c] (by simp)
    rcases (hg c _ i hds).1 (sets[c].images[i]'(by omega)) (by simp) with h | h
    · exact Or.inr h.1
    · exact Or.inl h.1
  · intro c p k j hp hj
    obtain ⟨ds, hds, hparse⟩ := hget c p hp
    obtain ⟨m, T, hrec, hm, -⟩ := loaded_at hparse hj
    rcases (hg c ds k hds).1 m hm with h | h
    · exact ⟨⟨fun _ => ⟨_, _, hrec, h.2⟩, fun _ => h.1⟩, fun _ => ⟨_, hrec, h.2⟩⟩
    · refine ⟨⟨fun h1 => ?_, ?_⟩, fun h1 => ?_⟩
      · rw [h.1] at h1; cases h1
      · rintro ⟨cs, e, he, hseen⟩
        rw [FromRecord_unique he hrec] at hseen
        exact absurd ⟨cs, hseen⟩ h.2
      · rw [h.1] at h1; cases h1

/-- Position `k` of every camera: the pose is that of the `k`-th readable record of the first camera, the correspondences
of each camera are those of its own `k`-th readable record. -/
def AtPosition (C : Codec Img) (fs : FS Img) (find : Img → Res TargetFeatures) (create : TargetFeatures → Res (List Corr2))
    (draw : Img → TargetFeatures → Res Unit)
    (paths : List String) (k : Nat) (item : Iso × List (List Corr2)) : Prop :=
  (∃ p j m, paths[0]? = some p ∧ (readableRecords C fs p)[k]? = some j ∧ FromRecord C fs p j (m, item.1)) ∧
    List.Forall₂ (fun p cs => ∃ j, (readableRecords C fs p)[k]? = some j ∧ SeenIn C fs find create draw p j cs) paths item.2

theorem shared_position {paths : List String} {first : DataSet Img} {rest : List (DataSet Img)}
    (hload : Loaded C fs paths (first :: rest)) {N : Nat}
    (hN : ∀ p ∈ paths, (readableRecords C fs p).length = N) {junk : Nat → Nat → Nat} {s : CorrDataSet}
    (hs : buildCorrDataSet find create draw junk (first :: rest) = .ok s) {k : Nat} (hk : k < s.cols)
    {item : Iso × List (List Corr2)} (h : SharedItem s first k item) : AtPosition C fs find create draw paths k item := by
  obtain ⟨hr, hc, -, htab⟩ := loaded_table hload hN hs
  obtain ⟨hseen, hpose, hlen, hcorr⟩ := h
  refine ⟨?_, ?_⟩
  · cases hload with
    | @cons p _ ps _ hp hrest =>
      have hl := hN p (by simp)
      have hj : (readableRecords C fs p)[k]? = some ((readableRecords C fs p)[k]'(by omega)) := by simp
      obtain ⟨m, T, hrec, -, hT⟩ := loaded_at hp hj
      rw [hpose] at hT
      cases hT
      exact ⟨p, _, m, by simp, hj, hrec⟩
  · rw [List.forall₂_iff_get]
    refine ⟨by omega, fun c h1 h2 => ?_⟩
    have hl := hN paths[c] (by simp)
    have hj : (readableRecords C fs paths[c])[k]? = some ((readableRecords C fs paths[c])[k]'(by omega)) := by simp
    have h3 := (htab c paths[c] k _ (by simp) hj).2 (hseen c (by omega))
    have h4 := hcorr c (by omega)
    have h5 : item.2[c]? = some item.2[c] := by simp
    rw [h5] at h4
    injection h4 with h4
    simp only [List.get_eq_getElem]
    rw [h4]
    exact ⟨_, hj, h3⟩

/-- If the same records are readable for all cameras, a position is a moment. -/
theorem position_moment {paths : List String} {R : List Nat} (hR : ∀ p ∈ paths, readableRecords C fs p = R) {k : Nat}
    {item : Iso × List (List Corr2)} (h : AtPosition C fs find create draw paths k item) :
    ∃ j, R[k]? = some j ∧ OneMoment C fs find create draw paths j item := by
  obtain ⟨⟨p, j, m, hp, hj, hrec⟩, hf⟩ := h
  rw [hR p (List.mem_of_getElem? hp)] at hj
  refine ⟨j, hj, ⟨p, m, hp, hrec⟩, ?_⟩
  have aux : ∀ (l : List String) (cs : List (List Corr2)), (∀ p ∈ l, p ∈ paths) →
      List.Forall₂ (fun p cs => ∃ j, (readableRecords C fs p)[k]? = some j ∧ SeenIn C fs find create draw p j cs) l cs →
      List.Forall₂ (fun p cs => SeenIn C fs find create draw p j cs) l cs := by
    intro l cs hl h
    induction h with
    | nil => exact .nil
    | @cons p _ _ _ h _ ih =>
      obtain ⟨j', h1, h2⟩ := h
      rw [hR p (hl p (by simp)), hj] at h1
      cases h1
      exact .cons h2 (ih fun p hp => hl p (by simp [hp]))
  exact aux _ _ (fun _ h => h) hf

/-- The multi step tool: if the same records are readable for all cameras, every observation it collects, a wrist pose and
the correspondences of all cameras, belongs to one moment. Each moment is used at most once and in order, and a moment is
used exactly if the target is found in the images of all cameras.
Missing: data in which a record is unreadable for some cameras only (`C180_negation`). -/
theorem C180_partial {paths : List String} {first : DataSet Img} {rest : List (DataSet Img)}
    (hload : Loaded C fs paths (first :: rest)) (R : List Nat) (hR : ∀ p ∈ paths, readableRecords C fs p = R)
    (junk : Nat → Nat → Nat) (s : CorrDataSet) (hs : buildCorrDataSet find create draw junk (first :: rest) = .ok s) (W : Iso)
    (d : StepData) (h : multiStepCollect s (first :: rest) W = .ok d) :
    ∃ js, js.Pairwise (· < ·) ∧ (∀ j, j ∈ js ↔ ∀ p ∈ paths, ∃ cs, SeenIn C fs find create draw p j cs) ∧
      d.wristPoses.length = d.observations.length ∧
      List.Forall₂ (OneMoment C fs find create draw paths) js (d.wristPoses.zip d.observations) := by
  obtain ⟨hr, hc, hp, htab⟩ := loaded_table hload (fun p hp => congrArg List.length (hR p hp)) hs
  obtain ⟨ks, items, ⟨hsort, hmem, hf⟩, h1, h2, -⟩ := C107_multi_step s hp first rest W d h
  have hzip : d.wristPoses.zip d.observations = items := by
    rw [h1, h2]
    clear hf h1 h2
    induction items with
    | nil => rfl
    | cons a l ih => simp [ih]
  have hsortR : R.Pairwise (· < ·) := by
    cases hload with
    | @cons p _ ps _ hp hrest => rw [← hR p (by simp)]; exact readableRecords_sorted p
  have hkR : ∀ k ∈ ks, k < R.length := fun k hk => by have := ((hmem k).1 hk).1; omega
  refine ⟨ks.map fun k => R.getD k 0, ?_, ?_, by rw [h1, h2]; simp, ?_⟩
  · rw [List.pairwise_map]
    refine List.Pairwise.imp_of_mem ?_ hsort
    intro a b ha hb hab
    have ha' := hkR a ha
    have hb' := hkR b hb
    have := List.pairwise_iff_getElem.1 hsortR a b ha' hb' hab
    simpa [List.getD_eq_getElem?_getD, ha', hb'] using this
  · intro j
    rw [List.mem_map]
    constructor
    · rintro ⟨k, hk, rfl⟩ p hp
      have hk' := hkR k hk
      obtain ⟨-, item, hseen, -⟩ := (hmem k).1 hk
      obtain ⟨c, hcl, hc'⟩ := List.mem_iff_getElem.1 hp
      have := (htab c p k (R.getD k 0) (by rw [← hc']; simp) (by rw [hR p hp]; simp [hk'])).1
      exact this.1 (hseen c (by omega))
    · intro hall
      have hj : j ∈ R := by
        cases hload with
        | @cons p _ ps _ hp hrest =>
          obtain ⟨cs, e, he, -⟩ := hall p (by simp)
          rw [← hR p (by simp)]
          exact mem_readableRecords.2 ⟨e, he⟩
      obtain ⟨k, hk, rfl⟩ := List.mem_iff_getElem.1 hj
      refine ⟨k, ?_, by simp [hk]⟩
      have hposes : k < first.poses.length := by
        cases hload with
        | @cons p _ ps _ hp hrest => rw [(loaded_records hp).2.2, hR p (by simp)]; exact hk
      refine (hmem k).2 ⟨by omega, (first.poses[k], (List.range s.rows).map fun c => s.corr c k), ?_, by simp, by simp, ?_⟩
      · intro c hcl
        have hcp : c < paths.length := by omega
        refine (htab c paths[c] k R[k] (by simp) (by rw [hR _ (by simp)]; simp)).1.2 (hall _ (by simp))
      · intro c hcl
        simp [hcl]
  · rw [hzip, List.forall₂_map_left_iff]
    have aux : ∀ (l : List Nat) (es : List (Iso × List (List Corr2))), (∀ k ∈ l, k ∈ ks) →
        List.Forall₂ (SharedItem s first) l es →
        List.Forall₂ (fun k e => OneMoment C fs find create draw paths (R.getD k 0) e) l es := by
      intro l es hl h
      induction h with
      | nil => exact .nil
      | @cons k e _ _ h _ ih =>
        refine .cons ?_ (ih fun j hj => hl j (by simp [hj]))
        have hk := ((hmem k).1 (hl k (by simp))).1
        obtain ⟨j, hj, hm⟩ := position_moment hR
          (shared_position hload (fun p hp => congrArg List.length (hR p hp)) hs hk h)
        rw [List.getD_eq_getElem?_getD, hj]
        exact hm
    exact aux _ _ (fun _ h => h) hf

/-- The PnP tool for several cameras: the same, and the image it draws on is the one of the same moment.
Missing: data in which a record is unreadable for some cameras only. -/
theorem C180_partial_pnp {paths : List String} {first : DataSet Img} {rest : List (DataSet Img)}
    (hload : Loaded C fs paths (first :: rest)) (R : List Nat) (hR : ∀ p ∈ paths, readableRecords C fs p = R)
    (junk : Nat → Nat → Nat) (s : CorrDataSet) (hs : buildCorrDataSet find create draw junk (first :: rest) = .ok s)
    (out : List (Iso × Img × List (List Corr2))) (h : multiPnpItems s (first :: rest) s.rows = .ok out) :
    ∀ e ∈ out, ∃ j, OneMoment C fs find create draw paths j (e.1, e.2.2) ∧
      ∃ p, paths[0]? = some p ∧ FromRecord C fs p j (e.2.1, e.1) := by
  obtain ⟨hr, hc, hp, htab⟩ := loaded_table hload (fun p hp => congrArg List.length (hR p hp)) hs
  obtain ⟨ks, hsort, hmem, hf⟩ := C107_multi_pnp s hp first rest out h
  intro e he
  obtain ⟨k, hk, h1, h2⟩ := Forall₂.mem_right hf he
  obtain ⟨j, hj, hm⟩ := position_moment hR
    (shared_position hload (fun p hp => congrArg List.length (hR p hp)) hs ((hmem k).1 hk).1 h1)
  refine ⟨j, hm, ?_⟩
  cases hload with
  | @cons p _ ps _ hp hrest =>
    obtain ⟨m, T, hrec, h3, h4⟩ := loaded_at hp (k := k) (j := j) (by rw [hR p (by simp)]; exact hj)
    rw [h2] at h3
    rw [h1.2.1] at h4
    cases h3
    cases h4
    exact ⟨p, by simp, hrec⟩

/-- If a record is readable for the first camera but not for another one, although for all cameras the same number of
records is readable, the multi step tool ends normally and combines different moments: provided the target is found in all
images, and no two records of the first camera have the same pose and no two of the other camera the same correspondences,
one of the observations it collects belongs to no moment. -/
theorem C180_negation {p0 : String} {ps : List String} {first : DataSet Img} {rest : List (DataSet Img)}
    (hload : Loaded C fs (p0 :: ps) (first :: rest)) (N : Nat) (hN : ∀ p ∈ p0 :: ps, (readableRecords C fs p).length = N)
    (p : String) (hp : p ∈ p0 :: ps) (r : Nat) (hr0 : ∃ e, FromRecord C fs p0 r e) (hr1 : ¬ ∃ e, FromRecord C fs p r e)
    (hseen : ∀ p ∈ p0 :: ps, ∀ j e, FromRecord C fs p j e → ∃ cs, Seen find create draw e.1 cs)
    (hpose : ∀ j j' m m' T, FromRecord C fs p0 j (m, T) → FromRecord C fs p0 j' (m', T) → j = j')
    (hcorr : ∀ j j' cs, SeenIn C fs find create draw p j cs → SeenIn C fs find create draw p j' cs → j = j')
    (junk : Nat → Nat → Nat) (s : CorrDataSet) (hs : buildCorrDataSet find create draw junk (first :: rest) = .ok s) (W : Iso) :
    ∃ d, multiStepCollect s (first :: rest) W = .ok d ∧
      ∃ item ∈ d.wristPoses.zip d.observations, ∀ j, ¬ OneMoment C fs find create draw (p0 :: ps) j item := by
  obtain ⟨hrows, hcols, hflags, htab⟩ := loaded_table hload hN hs
  have hfirst : parseFromFile C fs p0 = .ok (some first) := by cases hload; assumption
  obtain ⟨d, hd⟩ := C107_multi_step_returns s first rest W
    (by rw [hcols, (loaded_records hfirst).2.2, hN p0 (by simp)])
  refine ⟨d, hd, ?_⟩
  obtain ⟨ks, items, ⟨hsort, hmem, hf⟩, h1, h2, -⟩ := C107_multi_step s hflags first rest W d hd
  have hzip : d.wristPoses.zip d.observations = items := by
    rw [h1, h2]
    clear hf h1 h2
    induction items with
    | nil => rfl
    | cons a l ih => simp [ih]
  have hl0 := hN p0 (by simp)
  have hl1 := hN p hp
  obtain ⟨k, hk, hne⟩ : ∃ k, ∃ hk : k < N, (readableRecords C fs p0)[k]'(by omega) ≠ (readableRecords C fs p)[k]'(by omega) := by
    by_contra hcon
    push Not at hcon
    have heq : readableRecords C fs p0 = readableRecords C fs p :=
      List.ext_getElem (by omega) fun k h1 h2 => hcon k (by omega)
    exact hr1 (mem_readableRecords.1 (heq ▸ mem_readableRecords.2 hr0))
  have hposes : k < first.poses.length := by rw [(loaded_records hfirst).2.2, hl0]; exact hk
  have hkmem : k ∈ ks := by
    refine (hmem k).2 ⟨by omega, (first.poses[k], (List.range s.rows).map fun c => s.corr c k), ?_, by simp, by simp, ?_⟩
    · intro c hcl
      have hcp : c < (p0 :: ps).length := by omega
      have hl := hN (p0 :: ps)[c] (by simp)
      have hj : (readableRecords C fs (p0 :: ps)[c])[k]? = some ((readableRecords C fs (p0 :: ps)[c])[k]'(by omega)) := by simp
      refine (htab c (p0 :: ps)[c] k _ (by simp) hj).1.2 ?_
      obtain ⟨e, he⟩ := mem_readableRecords.1 (List.mem_of_getElem? hj)
      obtain ⟨cs, hcs⟩ := hseen _ (by simp) _ e he
      exact ⟨cs, e, he, hcs⟩
    · intro c hcl
      simp [hcl]
  obtain ⟨item, hitem, hshared⟩ := Forall₂.mem_left hf hkmem
  refine ⟨item, by rw [hzip]; exact hitem, ?_⟩
  rintro j ⟨⟨q, m, hq, hqrec⟩, hcs⟩
  obtain ⟨⟨q', j0, m', hq', hj0, hrec0⟩, hcs'⟩ := shared_position hload hN hs (by omega) hshared
  cases hq
  cases hq'
  have e0 := hpose _ _ _ _ _ hqrec hrec0
  subst e0
  obtain ⟨c, hc, hcp⟩ := List.mem_iff_getElem.1 hp
  have hc2 : c < item.2.length := by rw [← hcs.length_eq]; exact hc
  have a1 := (List.forall₂_iff_get.1 hcs).2 c hc hc2
  obtain ⟨j1, hj1, a2⟩ := (List.forall₂_iff_get.1 hcs').2 c hc hc2
  simp only [List.get_eq_getElem] at a1 a2 hj1
  rw [hcp] at a1 a2 hj1
  have e1 := hcorr _ _ _ a1 a2
  subst e1
  rw [List.getElem?_eq_getElem (by omega)] at hj0 hj1
  injection hj0 with hj0
  injection hj1 with hj1
  exact hne (hj0.trans hj1.symm)

/-! ### An example

Two cameras `a` and `b` with two records each; the files of record 0 are missing for `a`, those of record 1 for `b`. -/

def alText (t : String) : Yaml := .scalar ⟨t, none, none, none⟩
def alNum (x : ℝ) : Yaml := .scalar ⟨"", some (some x), none, none⟩
def alIndex : Yaml := .seq [.map [("image", alText "i0"), ("pose", alText "p0")], .map [("image", alText "i1"), ("pose", alText "p1")]]
noncomputable def alPose : Yaml :=
  .map [("x", alNum 0), ("y", alNum 0), ("z", alNum 0), ("qw", alNum 1), ("qx", alNum 0), ("qy", alNum 0), ("qz", alNum 0)]
noncomputable def alIso : Iso := ⟨Quat.toMat ⟨1, 0, 0, 0⟩, ⟨0, 0, 0⟩⟩
noncomputable def alFiles : FS Nat := ⟨fun _ => True, fun p =>
  if p = "a" ∨ p = "b" then some (.yaml alIndex)
  else if p = "a/i1" then some (.image 5)
  else if p = "b/i0" then some (.image 7)
  else if p = "a/p1" ∨ p = "b/p0" then some (.yaml alPose)
  else none⟩
def alCodec : Codec Nat := ⟨fun _ => false, id⟩
def alFind : Nat → Res TargetFeatures := fun m => .ok [(0, [⟨m, 0⟩])]

theorem alPose_dec : decIso alPose = .ok alIso := rfl

theorem al_load_a : parseFromFile alCodec alFiles "a" = .ok (some ⟨[5], [alIso]⟩) := by
  have h0 : rootPath "a" = "a" := by decide
  have hf : alFiles.files "a" = some (.yaml alIndex) := by simp [alFiles]
  have hi0 : alFiles.files (combine "a" "i0") = none := by simp [alFiles, combine]
  have hi1 : alFiles.files (combine "a" "i1") = some (.image 5) := by simp [alFiles, combine]
  have hp1 : alFiles.files (combine "a" "p1") = some (.yaml alPose) := by simp [alFiles, combine]
  have hr : (List.range alIndex.size) = [0, 1] := rfl
  have e1 : entryString alIndex 0 "image" = .ok "i0" := rfl
  have e2 : entryString alIndex 0 "pose" = .ok "p0" := rfl
  have e3 : entryString alIndex 1 "image" = .ok "i1" := rfl
  have e4 : entryString alIndex 1 "pose" = .ok "p1" := rfl
  have r0 : readImage alCodec alFiles (combine "a" "i0") = none := by unfold readImage; rw [hi0]
  have r1 : readImage alCodec alFiles (combine "a" "i1") = some 5 := by unfold readImage; rw [hi1]; rfl
  have t1 : tryLoadPoseFile alFiles (combine "a" "p1") = .ok (some alIso) :=
    (tryLoadPoseFile_some_iff alFiles _ _).2 ⟨_, hp1, alPose_dec⟩
  unfold parseFromFile loadYaml parse
  simp only [hf, Res.ok_bind, h0, hr, Res.foldList_cons, Res.foldList_nil, parseStep, e1, e2, e3, e4, r0, r1, t1]
  rfl

theorem al_load_b : parseFromFile alCodec alFiles "b" = .ok (some ⟨[7], [alIso]⟩) := by
  have h0 : rootPath "b" = "b" := by decide
  have hf : alFiles.files "b" = some (.yaml alIndex) := by simp [alFiles]
  have hi0 : alFiles.files (combine "b" "i0") = some (.image 7) := by simp [alFiles, combine]
  have hi1 : alFiles.files (combine "b" "i1") = none := by simp [alFiles, combine]
  have hp0 : alFiles.files (combine "b" "p0") = some (.yaml alPose) := by simp [alFiles, combine]
  have hr : (List.range alIndex.size) = [0, 1] := rfl
  have e1 : entryString alIndex 0 "image" = .ok "i0" := rfl
  have e2 : entryString alIndex 0 "pose" = .ok "p0" := rfl
  have e3 : entryString alIndex 1 "image" = .ok "i1" := rfl
  have e4 : entryString alIndex 1 "pose" = .ok "p1" := rfl
  have r0 : readImage alCodec alFiles (combine "b" "i0") = some 7 := by unfold readImage; rw [hi0]; rfl
  have r1 : readImage alCodec alFiles (combine "b" "i1") = none := by unfold readImage; rw [hi1]
  have t0 : tryLoadPoseFile alFiles (combine "b" "p0") = .ok (some alIso) :=
    (tryLoadPoseFile_some_iff alFiles _ _).2 ⟨_, hp0, alPose_dec⟩
  unfold parseFromFile loadYaml parse
  simp only [hf, Res.ok_bind, h0, hr, Res.foldList_cons, Res.foldList_nil, parseStep, e1, e2, e3, e4, r0, r1, t0]
  rfl

theorem al_records_a {j : Nat} {e : Nat × Iso} (h : FromRecord alCodec alFiles "a" j e) : j = 1 := by
  have h0 : rootPath "a" = "a" := by decide
  have hf : alFiles.files "a" = some (.yaml alIndex) := by simp [alFiles]
  obtain ⟨root, hr, hj, ip, pp, m, y, a1, a2, a3, -⟩ := h
  rw [hf] at hr
  cases hr
  have hj' : j < 2 := hj
  interval_cases j
  · have e1 : entryString alIndex 0 "image" = .ok "i0" := rfl
    rw [e1] at a1
    cases a1
    rw [h0] at a3
    have hi0 : alFiles.files ("a" ++ "/" ++ "i0") = none := by simp [alFiles]
    rw [hi0] at a3
    cases a3
  · rfl

theorem al_records_b {j : Nat} {e : Nat × Iso} (h : FromRecord alCodec alFiles "b" j e) : j = 0 := by
  have h0 : rootPath "b" = "b" := by decide
  have hf : alFiles.files "b" = some (.yaml alIndex) := by simp [alFiles]
  obtain ⟨root, hr, hj, ip, pp, m, y, a1, a2, a3, -⟩ := h
  rw [hf] at hr
  cases hr
  have hj' : j < 2 := hj
  interval_cases j
  · rfl
  · have e1 : entryString alIndex 1 "image" = .ok "i1" := rfl
    rw [e1] at a1
    cases a1
    rw [h0] at a3
    have hi0 : alFiles.files ("b" ++ "/" ++ "i1") = none := by simp [alFiles]
    rw [hi0] at a3
    cases a3

/-- The tool combines record 1 of `a` with record 0 of `b`. -/
example (junk : Nat → Nat → Nat) (W : Iso) : ∃ s d,
    buildCorrDataSet alFind (fun _ => .ok []) (fun _ _ => .ok ()) junk [⟨[5], [alIso]⟩, ⟨[7], [alIso]⟩] = .ok s ∧
    multiStepCollect s [⟨[5], [alIso]⟩, ⟨[7], [alIso]⟩] W = .ok d ∧
    ∃ item ∈ d.wristPoses.zip d.observations, ∀ j, ¬ OneMoment alCodec alFiles alFind (fun _ => .ok []) (fun _ _ => .ok ()) ["a", "b"] j item := by
  have hload : Loaded alCodec alFiles ["a", "b"] [⟨[5], [alIso]⟩, ⟨[7], [alIso]⟩] :=
    .cons al_load_a (.cons al_load_b .nil)
  obtain ⟨s, hs⟩ := C80_returns (find := alFind) (create := fun _ => .ok []) (draw := fun _ _ => .ok ()) (fun m => Or.inl ⟨_, rfl⟩)
    (fun _ => Or.inl ⟨_, rfl⟩) (fun _ _ => Or.inl ⟨_, rfl⟩) junk [⟨[5], [alIso]⟩, ⟨[7], [alIso]⟩] 1 (by simp) (by simp)
  obtain ⟨-, la, -⟩ := loaded_records al_load_a
  obtain ⟨-, lb, -⟩ := loaded_records al_load_b
  have ra : ∃ e, FromRecord alCodec alFiles "a" 1 e := by
    have hne : (readableRecords alCodec alFiles "a") ≠ [] := by
      intro h; rw [h] at la; cases la
    obtain ⟨j, l, hjl⟩ := List.exists_cons_of_ne_nil hne
    obtain ⟨e, he⟩ := mem_readableRecords.1 (hjl ▸ List.mem_cons_self : j ∈ readableRecords alCodec alFiles "a")
    exact ⟨e, al_records_a he ▸ he⟩
  have rb : ¬ ∃ e, FromRecord alCodec alFiles "b" 1 e := by
    rintro ⟨e, he⟩
    cases al_records_b he
  obtain ⟨d, hd, h⟩ := C180_negation (create := fun _ => .ok []) (draw := fun _ _ => .ok ()) hload 1
    (by intro p hp
        simp only [List.mem_cons, List.not_mem_nil, or_false] at hp
        rcases hp with rfl | rfl
        · exact la.symm
        · exact lb.symm)
    "b" (by simp) 1 ra rb
    (fun p _ j e _ => ⟨[], _, rfl, by simp, rfl, rfl⟩)
    (fun j j' m m' T h h' => (al_records_a h).trans (al_records_a h').symm)
    (fun j j' cs h h' => by
      obtain ⟨e, he, -⟩ := h
      obtain ⟨e', he', -⟩ := h'
      exact (al_records_b he).trans (al_records_b he').symm)
    junk s hs W
  exact ⟨s, d, hs, hd, h⟩

/-- With two cameras that share their files, the hypotheses of `C180_partial` hold. -/
example : Loaded alCodec alFiles ["a", "a"] [⟨[5], [alIso]⟩, ⟨[5], [alIso]⟩] ∧
    ∃ R, ∀ p ∈ ["a", "a"], readableRecords alCodec alFiles p = R :=
  ⟨.cons al_load_a (.cons al_load_a .nil), _, by intro p hp; simp only [List.mem_cons, List.not_mem_nil, or_false, or_self] at hp; rw [hp]⟩

end RCT
