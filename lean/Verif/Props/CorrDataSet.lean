import Verif.Spec.DataSet
import Verif.Lemmas.Grid

/-!
# C80: bookkeeping of correspondence data sets

Full statement: for any list of data sets, the entry of a camera and an image is flagged exactly if the target was found in
it, and then holds its correspondences; the counts are the numbers of flags in a column or row. This holds if all
cameras have the same number of images, at least one camera is given. Otherwise memory is read that was never
written, or accessed outside its bounds (`C80_negation…`). In the debug mode, which the tools use, it must also be possible to draw
the target: otherwise an image in which it was found is not flagged (`C80_negation_drawing`).
-/

namespace RCT

open Spec

variable {Img : Type} {find : Img → Res TargetFeatures} {create : TargetFeatures → Res (List Corr2)}
    {draw : Img → TargetFeatures → Res Unit}

/-- What the table has to contain for an image. -/
def EntryGood (find : Img → Res TargetFeatures) (create : TargetFeatures → Res (List Corr2))
    (draw : Img → TargetFeatures → Res Unit) (m : Img) (flag : Nat)
    (cs : List Corr2) : Prop :=
  (flag = 1 ∧ Seen find create draw m cs) ∨ (flag = 0 ∧ ¬ ∃ cs', Seen find create draw m cs')

theorem corrStep_ok {c i : Nat} {images : List Img} {s s' : CorrDataSet} (h : corrStep find create draw c images s i = .ok s') :
    (c < s.rows ∧ i < s.cols) ∧ s'.rows = s.rows ∧ s'.cols = s.cols ∧
      (∀ c' i', ¬ (c' = c ∧ i' = i) → s'.mask c' i' = s.mask c' i' ∧ s'.corr c' i' = s.corr c' i') ∧
      ∃ m, images[i]? = some m ∧ EntryGood find create draw m (s'.mask c i) (s'.corr c i) := by
  unfold corrStep at h
  split_ifs at h with hb
  have hb' : c < s.rows ∧ i < s.cols := hb
  refine ⟨hb', ?_⟩
  unfold Res.idxList at h
  cases hm : images[i]? with
  | none => rw [hm] at h; cases h
  | some m =>
    rw [hm] at h
    simp only [Res.ok_bind] at h
    cases hf : find m with
    | ok fs =>
      rw [hf] at h
      simp only [Res.ok_bind] at h
      split_ifs at h with he
      · have he' : fs = [] := List.isEmpty_iff.1 he
        cases h
        refine ⟨rfl, rfl, fun c' i' hne => ⟨by simp [CorrDataSet.setMask, hne], rfl⟩, m, rfl, Or.inr ⟨by
          simp [CorrDataSet.setMask], ?_⟩⟩
        rintro ⟨cs', fs', h1, h2, -⟩
        rw [hf] at h1; cases h1
        exact h2 he'
      · have he' : fs ≠ [] := fun h' => he (List.isEmpty_iff.2 h')
        cases hc : create fs with
        | ok cs =>
          rw [hc] at h
          simp only [Res.ok_bind] at h
          cases hd : draw m fs with
          | ok u =>
            rw [hd] at h
            cases h
            refine ⟨rfl, rfl, fun c' i' hne => ⟨by simp [CorrDataSet.setMask, CorrDataSet.setCorr, hne], by
              simp [CorrDataSet.setMask, CorrDataSet.setCorr, hne]⟩, m, rfl, Or.inl ⟨by
              simp [CorrDataSet.setMask, CorrDataSet.setCorr], ?_⟩⟩
            exact ⟨fs, hf, he', by simp [CorrDataSet.setMask, CorrDataSet.setCorr, hc], hd⟩
          | throw e =>
            rw [hd] at h
            cases h
            refine ⟨rfl, rfl, fun c' i' hne => ⟨by simp [CorrDataSet.setMask, CorrDataSet.setCorr, hne], by
              simp [CorrDataSet.setMask, CorrDataSet.setCorr, hne]⟩, m, rfl, Or.inr ⟨by
              simp [CorrDataSet.setMask, CorrDataSet.setCorr], ?_⟩⟩
            rintro ⟨cs', fs', h1, h2, h3, h4⟩
            rw [hf] at h1; cases h1
            rw [hd] at h4; cases h4
          | abort => rw [hd] at h; cases h
          | ub => rw [hd] at h; cases h
        | throw e =>
          rw [hc] at h
          cases h
          refine ⟨rfl, rfl, fun c' i' hne => ⟨by simp [CorrDataSet.setMask, hne], rfl⟩, m, rfl, Or.inr ⟨by
            simp [CorrDataSet.setMask], ?_⟩⟩
          rintro ⟨cs', fs', h1, h2, h3, -⟩
          rw [hf] at h1; cases h1
          rw [hc] at h3; cases h3
        | abort => rw [hc] at h; cases h
        | ub => rw [hc] at h; cases h
    | throw e =>
      rw [hf] at h
      cases h
      refine ⟨rfl, rfl, fun c' i' hne => ⟨by simp [CorrDataSet.setMask, hne], rfl⟩, m, rfl, Or.inr ⟨by
        simp [CorrDataSet.setMask], ?_⟩⟩
      rintro ⟨cs', fs', h1, -⟩
      rw [hf] at h1; cases h1
    | abort => rw [hf] at h; cases h
    | ub => rw [hf] at h; cases h

/-- One camera. -/
theorem corrRow_ok {c : Nat} {images : List Img} {s s' : CorrDataSet} {k : Nat}
    (h : Res.foldList (corrStep find create draw c images) s (List.range k) = .ok s') :
    (0 < k → c < s.rows ∧ k ≤ s.cols) ∧ s'.rows = s.rows ∧ s'.cols = s.cols ∧
      (∀ c' i', ¬ (c' = c ∧ i' < k) → s'.mask c' i' = s.mask c' i' ∧ s'.corr c' i' = s.corr c' i') ∧
      ∀ i, i < k → ∃ m, images[i]? = some m ∧ EntryGood find create draw m (s'.mask c i) (s'.corr c i) := by
  induction k generalizing s' with
  | zero =>
    cases h
    exact ⟨fun h => absurd h (lt_irrefl 0), rfl, rfl, fun _ _ _ => ⟨rfl, rfl⟩, fun i hi => by omega⟩
  | succ k ih =>
    rw [List.range_succ, Res.foldList_append, Res.bind_ok_iff] at h
    obtain ⟨s0, h0, h⟩ := h
    rw [Res.foldList_cons, Res.bind_ok_iff] at h
    obtain ⟨s1, h1, h⟩ := h
    cases h
    obtain ⟨-, hr, hc, ho, hg⟩ := ih h0
    obtain ⟨b, hr1, hc1, ho1, m, hm, hg1⟩ := corrStep_ok h1
    rw [hr, hc] at b
    refine ⟨fun _ => ⟨b.1, b.2⟩, hr1.trans hr, hc1.trans hc, ?_, ?_⟩
    · intro c' i' hne
      have h1 := ho1 c' i' (fun he => hne ⟨he.1, by omega⟩)
      have h2 := ho c' i' (fun he => hne ⟨he.1, by omega⟩)
      exact ⟨h1.1.trans h2.1, h1.2.trans h2.2⟩
    · intro i hi
      by_cases hik : i = k
      · subst hik; exact ⟨m, hm, hg1⟩
      · obtain ⟨m', hm', hg'⟩ := hg i (by omega)
        have := ho1 c i (fun he => hik he.2)
        rw [this.1, this.2]
        exact ⟨m', hm', hg'⟩

/-- The whole table. -/
theorem corrTable_ok {junk : Nat → Nat → Nat} {sets : List (DataSet Img)} {s : CorrDataSet}
    (h : buildCorrDataSet find create draw junk sets = .ok s) :
    ∃ first, sets[0]? = some first ∧ s.rows = sets.length ∧ s.cols = first.images.length ∧
      (∀ (c : Nat) ds, sets[c]? = some ds → ds.images.length ≤ s.cols) ∧
      ∀ (c : Nat) ds (i : Nat), sets[c]? = some ds →
        (∀ m, ds.images[i]? = some m → EntryGood find create draw m (s.mask c i) (s.corr c i)) ∧
        (ds.images.length ≤ i → s.mask c i = junk c i ∧ s.corr c i = []) := by
  unfold buildCorrDataSet at h
  rw [Res.bind_ok_iff] at h
  obtain ⟨first, hfirst, h⟩ := h
  have hfirst' : sets[0]? = some first := by
    unfold Res.idxList at hfirst
    split at hfirst
    · next a ha => cases hfirst; exact ha
    · cases hfirst
  refine ⟨first, hfirst', ?_⟩
  have key : ∀ k s', k ≤ sets.length → Res.foldList (fun s c =>
      (Res.idxList sets c).bind fun ds =>
      Res.foldList (corrStep find create draw c ds.images) s (List.range ds.images.length))
      (⟨sets.length, first.images.length, junk, fun _ _ => []⟩ : CorrDataSet) (List.range k) = .ok s' →
      s'.rows = sets.length ∧ s'.cols = first.images.length ∧
      (∀ (c : Nat) ds, c < k → sets[c]? = some ds → ds.images.length ≤ s'.cols) ∧
      (∀ c i, k ≤ c → s'.mask c i = junk c i ∧ s'.corr c i = []) ∧
      ∀ (c : Nat) ds (i : Nat), c < k → sets[c]? = some ds →
        (∀ m, ds.images[i]? = some m → EntryGood find create draw m (s'.mask c i) (s'.corr c i)) ∧
        (ds.images.length ≤ i → s'.mask c i = junk c i ∧ s'.corr c i = []) := by
    intro k
    induction k with
    | zero =>
      intro s' _ h
      cases h
      exact ⟨rfl, rfl, fun _ _ h => by omega, fun _ _ _ => ⟨rfl, rfl⟩, fun _ _ _ h => by omega⟩
    | succ k ih =>
      intro s' hk h
      rw [List.range_succ, Res.foldList_append, Res.bind_ok_iff] at h
      obtain ⟨s0, h0, h⟩ := h
      rw [Res.foldList_cons, Res.bind_ok_iff] at h
      obtain ⟨s1, h1, h⟩ := h
      cases h
      obtain ⟨hr, hc, hle, hj, hg⟩ := ih s0 (by omega) h0
      have hds : sets[k]? = some sets[k] := by simp
      have : Res.idxList sets k = .ok sets[k] := by unfold Res.idxList; rw [hds]
      rw [this, Res.ok_bind] at h1
      obtain ⟨hb, hr1, hc1, ho, hg1⟩ := corrRow_ok h1
      refine ⟨hr1.trans hr, hc1.trans hc, ?_, ?_, ?_⟩
      · intro c ds hck hcd
        rw [hc1]
        by_cases hce : c = k
        · subst hce
          rw [hds] at hcd
          cases hcd
          rcases Nat.eq_zero_or_pos (sets[c]).images.length with h0 | h0
          · omega
          · exact (hb h0).2
        · exact hle c ds (by omega) hcd
      · intro c i hck
        have h2 := ho c i (fun he => by omega)
        have h3 := hj c i (by omega)
        exact ⟨h2.1.trans h3.1, h2.2.trans h3.2⟩
      · intro c ds i hck hcd
        by_cases hce : c = k
        · subst hce
          rw [hds] at hcd
          cases hcd
          constructor
          · intro m hm
            obtain ⟨hlt, -⟩ := List.getElem?_eq_some_iff.1 hm
            obtain ⟨m', hm', hg'⟩ := hg1 i hlt
            rw [hm] at hm'
            cases hm'
            exact hg'
          · intro hi
            have h2 := ho c i (fun he => by omega)
            have h3 := hj c i (by omega)
            exact ⟨h2.1.trans h3.1, h2.2.trans h3.2⟩
        · have h2 := ho c i (fun he => hce he.1)
          rw [h2.1, h2.2]
          exact hg c ds i (by omega) hcd
  obtain ⟨k1, k2, k3, -, k5⟩ := key _ s (Nat.le_refl _) h
  refine ⟨k1, k2, ?_, ?_⟩
  · intro c ds hcd
    exact k3 c ds (List.getElem?_eq_some_iff.1 hcd).1 hcd
  · intro c ds i hcd
    exact k5 c ds i (List.getElem?_eq_some_iff.1 hcd).1 hcd

theorem sum_flags (n : Nat) (f : Nat → Nat) (hf : ∀ i, i < n → f i = 0 ∨ f i = 1) :
    ((List.range n).map f).sum = (List.range n).countP fun i => decide (f i ≠ 0) := by
  induction n with
  | zero => rfl
  | succ n ih =>
    rw [List.range_succ, List.map_append, List.sum_append, List.countP_append, ih fun i hi => hf i (by omega)]
    rcases hf n (by omega) with h | h <;> simp [h]

/-- With the same number `n` of images for all cameras: the flag is set exactly if the target was found and drawn, the flagged
entry holds the correspondences, and the counts are the numbers of flagged cameras and images. Missing from the full
claim: cameras with different numbers of images, no camera, targets that cannot be drawn. -/
theorem C80_partial (junk : Nat → Nat → Nat) (sets : List (DataSet Img)) (n : Nat)
    (hn : ∀ ds ∈ sets, ds.images.length = n) (s : CorrDataSet) (h : buildCorrDataSet find create draw junk sets = .ok s) :
    s.rows = sets.length ∧ s.cols = n ∧
    (∀ (c : Nat) ds (i : Nat) m, sets[c]? = some ds → ds.images[i]? = some m →
      (s.found c i = true ↔ ∃ cs, Seen find create draw m cs) ∧
      (s.found c i = true → Seen find create draw m (s.corr c i))) ∧
    (∀ i, i < n → s.imageCameraCount i = (List.range sets.length).countP fun c => s.found c i) ∧
    (∀ c, c < sets.length → s.cameraImageCount c = (List.range n).countP fun i => s.found c i) := by
  obtain ⟨first, hf, hr, hc, -, hg⟩ := corrTable_ok h
  have hcn : s.cols = n := by rw [hc]; exact hn first (List.mem_of_getElem? hf)
  have hflag : ∀ c i, c < sets.length → i < n → s.mask c i = 0 ∨ s.mask c i = 1 := by
    intro c i hcl hi
    have hds : sets[c]? = some sets[c] := by simp
    have hlen := hn sets[c] (by simp)
    rcases (hg c _ i hds).1 (sets[c].images[i]'(by omega)) (by simp) with h | h
    · exact Or.inr h.1
    · exact Or.inl h.1
  refine ⟨hr, hcn, ?_, ?_, ?_⟩
  · intro c ds i m hcd hm
    rcases (hg c ds i hcd).1 m hm with ⟨h1, h2⟩ | ⟨h1, h2⟩
    · have : s.found c i = true := by simp [CorrDataSet.found, h1]
      exact ⟨⟨fun _ => ⟨_, h2⟩, fun _ => this⟩, fun _ => h2⟩
    · have : ¬ s.found c i = true := by simp [CorrDataSet.found, h1]
      exact ⟨⟨fun h => absurd h this, fun h => absurd h h2⟩, fun h => absurd h this⟩
  · intro i hi
    unfold CorrDataSet.imageCameraCount CorrDataSet.found
    rw [hr, sum_flags _ _ fun c hcl => hflag c i hcl hi]
  · intro c hcl
    unfold CorrDataSet.cameraImageCount CorrDataSet.found
    rw [hcn, sum_flags _ _ fun i hi => hflag c i hcl hi]

theorem corrStep_returns {c i : Nat} {images : List Img} {s : CorrDataSet}
    (hfind : ∀ m ∈ images, (∃ fs, find m = .ok fs) ∨ ∃ e, find m = .throw e)
    (hcreate : ∀ fs, (∃ cs, create fs = .ok cs) ∨ ∃ e, create fs = .throw e)
    (hdraw : ∀ m fs, (∃ u, draw m fs = .ok u) ∨ ∃ e, draw m fs = .throw e) (hc : c < s.rows) (hi : i < s.cols) (hil : i < images.length) :
    ∃ s', corrStep find create draw c images s i = .ok s' := by
  unfold corrStep
  rw [if_neg (not_not.2 ⟨hc, hi⟩)]
  have : Res.idxList images i = .ok images[i] := by
    unfold Res.idxList; rw [List.getElem?_eq_getElem hil]
  simp only [this, Res.ok_bind]
  rcases hfind images[i] (by simp) with ⟨fs, hf⟩ | ⟨e, hf⟩
  · rw [hf]
    simp only [Res.ok_bind]
    split_ifs
    · exact ⟨_, rfl⟩
    · rcases hcreate fs with ⟨cs, hcs⟩ | ⟨e, hcs⟩ <;> rw [hcs]
      · simp only [Res.ok_bind]
        rcases hdraw images[i] fs with ⟨u, hd⟩ | ⟨e, hd⟩ <;> rw [hd] <;> exact ⟨_, rfl⟩
      · exact ⟨_, rfl⟩
  · rw [hf]; exact ⟨_, rfl⟩

theorem corrRow_returns {c : Nat} {images : List Img} {s : CorrDataSet} {k : Nat}
    (hfind : ∀ m ∈ images, (∃ fs, find m = .ok fs) ∨ ∃ e, find m = .throw e)
    (hcreate : ∀ fs, (∃ cs, create fs = .ok cs) ∨ ∃ e, create fs = .throw e)
    (hdraw : ∀ m fs, (∃ u, draw m fs = .ok u) ∨ ∃ e, draw m fs = .throw e) (hc : c < s.rows) (hk : k ≤ s.cols) (hil : k ≤ images.length) :
    ∃ s', Res.foldList (corrStep find create draw c images) s (List.range k) = .ok s' := by
  induction k with
  | zero => exact ⟨_, rfl⟩
  | succ k ih =>
    obtain ⟨s0, h0⟩ := ih (by omega) (by omega)
    obtain ⟨-, hr, hcc, -⟩ := corrRow_ok h0
    obtain ⟨s1, h1⟩ := corrStep_returns (c := c) (i := k) (s := s0) hfind hcreate hdraw (by omega) (by omega) (by omega)
    refine ⟨s1, ?_⟩
    rw [List.range_succ, Res.foldList_append, h0, Res.ok_bind, Res.foldList_cons, h1]
    rfl

/-- It returns for at least one camera and the same number of images for all, if the finder returns or throws. -/
theorem C80_returns (hfind : ∀ m, (∃ fs, find m = .ok fs) ∨ ∃ e, find m = .throw e)
    (hcreate : ∀ fs, (∃ cs, create fs = .ok cs) ∨ ∃ e, create fs = .throw e)
    (hdraw : ∀ m fs, (∃ u, draw m fs = .ok u) ∨ ∃ e, draw m fs = .throw e) (junk : Nat → Nat → Nat) (sets : List (DataSet Img)) (n : Nat) (hne : sets ≠ [])
    (hn : ∀ ds ∈ sets, ds.images.length = n) :
    ∃ s, buildCorrDataSet find create draw junk sets = .ok s := by
  obtain ⟨first, rest, rfl⟩ := List.exists_cons_of_ne_nil hne
  unfold buildCorrDataSet
  have h0 : Res.idxList (first :: rest) 0 = .ok first := rfl
  rw [h0, Res.ok_bind, hn first (by simp)]
  have key : ∀ k, k ≤ (first :: rest).length → ∃ s' : CorrDataSet, s'.rows = (first :: rest).length ∧ s'.cols = n ∧
      Res.foldList (fun s c =>
      (Res.idxList (first :: rest) c).bind fun ds =>
      Res.foldList (corrStep find create draw c ds.images) s (List.range ds.images.length))
      (⟨(first :: rest).length, n, junk, fun _ _ => []⟩ : CorrDataSet) (List.range k) = .ok s' := by
    intro k
    induction k with
    | zero => intro _; exact ⟨_, rfl, rfl, rfl⟩
    | succ k ih =>
      intro hk
      obtain ⟨s0, hr, hc, h0⟩ := ih (by omega)
      have : Res.idxList (first :: rest) k = .ok (first :: rest)[k] := by
        unfold Res.idxList; rw [List.getElem?_eq_getElem (by omega)]
      have hlen := hn (first :: rest)[k] (List.getElem_mem _)
      obtain ⟨s1, h1⟩ := corrRow_returns (c := k) (images := ((first :: rest)[k]).images) (s := s0)
        (k := ((first :: rest)[k]).images.length) (fun m _ => hfind m) hcreate hdraw (by omega) (by omega) (Nat.le_refl _)
      obtain ⟨-, hr1, hc1, -⟩ := corrRow_ok h1
      refine ⟨s1, by omega, by omega, ?_⟩
      rw [List.range_succ, Res.foldList_append, h0, Res.ok_bind, Res.foldList_cons, this, Res.ok_bind, h1]
      rfl
  obtain ⟨s, -, -, hs⟩ := key _ (Nat.le_refl _)
  exact ⟨s, hs⟩

/-- If a camera has fewer images than the first, the flags of its missing images are whatever the memory contained, so
images that do not exist can be reported as containing the target. -/
theorem C80_negation_fewer (junk : Nat → Nat → Nat) (sets : List (DataSet Img)) (s : CorrDataSet)
    (h : buildCorrDataSet find create draw junk sets = .ok s) (c i : Nat) (ds : DataSet Img) (hds : sets[c]? = some ds)
    (hi : ds.images.length ≤ i) : s.found c i = decide (junk c i ≠ 0) ∧ s.corr c i = [] := by
  obtain ⟨-, -, -, -, -, hg⟩ := corrTable_ok h
  obtain ⟨h1, h2⟩ := (hg c ds i hds).2 hi
  exact ⟨by simp [CorrDataSet.found, h1], h2⟩

/-- If drawing the target throws in the debug mode, the image is not flagged although the target was found. -/
theorem C80_negation_drawing (junk : Nat → Nat → Nat) (sets : List (DataSet Img)) (s : CorrDataSet)
    (h : buildCorrDataSet find create draw junk sets = .ok s) (c i : Nat) (ds : DataSet Img) (hds : sets[c]? = some ds) (m : Img)
    (hm : ds.images[i]? = some m) (fs : TargetFeatures) (hf : find m = .ok fs) (e : Exc) (hd : draw m fs = .throw e) :
    s.found c i = false := by
  obtain ⟨-, -, -, -, -, hg⟩ := corrTable_ok h
  rcases (hg c ds i hds).1 m hm with ⟨-, fs', h1, -, -, h2⟩ | ⟨h1, -⟩
  · rw [hf] at h1; cases h1
    rw [hd] at h2; cases h2
  · simp [CorrDataSet.found, h1]

/-- If a camera has more images than the first, the constructor does not return. -/
theorem C80_negation_more (junk : Nat → Nat → Nat) (sets : List (DataSet Img)) (c : Nat) (first ds : DataSet Img)
    (h0 : sets[0]? = some first) (hds : sets[c]? = some ds) (hmore : first.images.length < ds.images.length) (s : CorrDataSet) :
    buildCorrDataSet find create draw junk sets ≠ .ok s := by
  intro h
  obtain ⟨first', hf, -, hc, hle, -⟩ := corrTable_ok h
  rw [h0] at hf
  cases hf
  have := hle c ds hds
  omega

/-- With a second camera that has one more image than the first, memory outside the table is accessed. -/
theorem C80_negation_outside (m : Img) (hm : (∃ fs, find m = .ok fs) ∨ ∃ e, find m = .throw e)
    (hcreate : ∀ fs, (∃ cs, create fs = .ok cs) ∨ ∃ e, create fs = .throw e)
    (hdraw : ∀ m fs, (∃ u, draw m fs = .ok u) ∨ ∃ e, draw m fs = .throw e) (junk : Nat → Nat → Nat) :
    buildCorrDataSet find create draw junk [⟨[m], []⟩, ⟨[m, m], []⟩] = .ub := by
  unfold buildCorrDataSet
  have h0 : Res.idxList [(⟨[m], []⟩ : DataSet Img), ⟨[m, m], []⟩] 0 = .ok ⟨[m], []⟩ := rfl
  have h1 : Res.idxList [(⟨[m], []⟩ : DataSet Img), ⟨[m, m], []⟩] 1 = .ok ⟨[m, m], []⟩ := rfl
  have hr : List.range [(⟨[m], []⟩ : DataSet Img), ⟨[m, m], []⟩].length = [0, 1] := rfl
  rw [h0, Res.ok_bind, hr, Res.foldList_cons, h0, Res.ok_bind]
  have hfind : ∀ images : List Img, (∀ x ∈ images, x = m) → ∀ x ∈ images, (∃ fs, find x = .ok fs) ∨ ∃ e, find x = .throw e :=
    fun images hi x hx => by rw [hi x hx]; exact hm
  obtain ⟨s0, hs0⟩ := corrRow_returns (c := 0) (images := [m]) (k := 1)
    (s := ⟨2, 1, junk, fun _ _ => []⟩) (hfind _ (by simp)) hcreate hdraw (by norm_num) (by norm_num) (by simp)
  have hs0' : Res.foldList (corrStep find create draw 0 [m]) ⟨[(⟨[m], []⟩ : DataSet Img), ⟨[m, m], []⟩].length, [m].length, junk,
      fun _ _ => []⟩ (List.range [m].length) = .ok s0 := hs0
  obtain ⟨-, hr0, hc0, -⟩ := corrRow_ok hs0
  simp only at hr0 hc0
  rw [hs0', Res.ok_bind, Res.foldList_cons, h1, Res.ok_bind]
  have hr2 : List.range [m, m].length = [0, 1] := rfl
  simp only [hr2]
  rw [Res.foldList_cons]
  obtain ⟨s1, hs1⟩ := corrStep_returns (c := 1) (i := 0) (images := [m, m]) (s := s0) (hfind _ (by simp)) hcreate hdraw (by omega)
    (by omega) (by simp)
  obtain ⟨-, hr1, hc1, -⟩ := corrStep_ok hs1
  rw [hs1, Res.ok_bind, Res.foldList_cons]
  have : corrStep find create draw 1 [m, m] s1 1 = .ub := by
    unfold corrStep
    rw [if_pos (fun h => by omega)]
  rw [this]
  rfl

/-- Without a camera, the first one is accessed anyway. -/
theorem C80_negation_none (junk : Nat → Nat → Nat) :
    buildCorrDataSet find create draw junk ([] : List (DataSet Img)) = .ub := rfl

/-- Two cameras with two images each: every theorem above applies. -/
example : ∃ s, buildCorrDataSet (fun m : Nat => if m = 3 then .throw .runtimeError else .ok [(0, [⟨1, 2⟩])])
    (fun _ => .ok []) (fun m _ => if m = 4 then .throw .other else .ok ()) (fun _ _ => 7) [⟨[1, 2], []⟩, ⟨[3, 4], []⟩] = .ok s := by
  refine C80_returns ?_ (fun _ => Or.inl ⟨_, rfl⟩) ?_ _ _ 2 (by simp) (by simp)
  · intro m
    by_cases h : m = 3
    · rw [if_pos h]; exact Or.inr ⟨_, rfl⟩
    · rw [if_neg h]; exact Or.inl ⟨_, rfl⟩
  intro m _
  by_cases h : m = 4
  · rw [if_pos h]; exact Or.inr ⟨_, rfl⟩
  · rw [if_neg h]; exact Or.inl ⟨_, rfl⟩

end RCT
