import Verif.Lemmas.Paths
import Verif.Spec.DataSet
import Verif.Props.Serialization

/-!
# C75 – C78: data sets on disk
-/

namespace RCT

open Spec Yaml

variable {Img : Type}

/-! ## C75 Saved data sets load back

Full statement: saving a data set with as many poses as images to an empty directory and loading it returns the same
images and poses in the same order. Images are read back in colour with eight bits, so it is false for other images
(`C75_negation`). -/

theorem entryString_index {n i : Nat} (h : i < n) :
    entryString (indexNode n) i "image" = .ok ("images/" ++ toString i ++ ".png") ∧
    entryString (indexNode n) i "pose" = .ok ("poses/" ++ toString i ++ ".yaml") := by
  have hn : n ≠ 0 := by omega
  unfold entryString indexNode
  rw [if_neg hn]
  simp only [Yaml.idx, List.getElem?_map, List.getElem?_range h, Option.map_some, Res.ok_bind, asNode, Yaml.field, Yaml.key]
  constructor
  · simp [List.lookup, asString, yText]
  · simp [List.lookup, asString, yText]

theorem index_size (n : Nat) : (indexNode n).size = n := by
  unfold indexNode
  split
  · next h => rw [h]; rfl
  · simp [Yaml.size]

/-- The file system after the directories have been made. -/
theorem mkdirs_dirs (D : Disk) (fs : FS Img) (path : String) (hD0 : ¬ D.fail path) (hD1 : ¬ D.fail (path ++ "/images"))
    (hD2 : ¬ D.fail (path ++ "/poses")) (hdir : fs.dirs path ∨ fs.dirs (parentDir path)) :
    let fs' := [Action.mkdir path, .mkdir (path ++ "/images"), .mkdir (path ++ "/poses")].foldl (FS.apply D) fs
    fs'.dirs path ∧ fs'.dirs (path ++ "/images") ∧ fs'.dirs (path ++ "/poses") := by
  intro fs'
  have h1 : (fs.apply D (.mkdir path)).dirs path := by
    rcases hdir with h | h
    · exact apply_dirs D fs _ _ h
    · have : fs.openable D path := ⟨h, hD0⟩
      simp [FS.apply, this]
  have h2 : ((fs.apply D (.mkdir path)).apply D (.mkdir (path ++ "/images"))).dirs (path ++ "/images") := by
    have : (fs.apply D (.mkdir path)).openable D (path ++ "/images") := ⟨by rw [parentDir_images]; exact h1, hD1⟩
    rw [FS.apply, if_pos this]
    left; rfl
  have h1' := apply_dirs D _ (.mkdir (path ++ "/images")) _ h1
  have h3 : fs'.dirs (path ++ "/poses") := by
    have : ((fs.apply D (.mkdir path)).apply D (.mkdir (path ++ "/images"))).openable D (path ++ "/poses") :=
      ⟨by rw [parentDir_poses]; exact h1', hD2⟩
    show (FS.apply D _ (.mkdir (path ++ "/poses"))).dirs _
    rw [FS.apply, if_pos this]
    left; rfl
  exact ⟨apply_dirs D _ (.mkdir (path ++ "/poses")) _ h1', apply_dirs D _ (.mkdir (path ++ "/poses")) _ h2, h3⟩

theorem mkdirs_openable (D : Disk) (hD : ∀ p, ¬ D.fail p) (fs : FS Img) (path : String)
    (hdir : fs.dirs path ∨ fs.dirs (parentDir path)) :
    let fs' := [Action.mkdir path, .mkdir (path ++ "/images"), .mkdir (path ++ "/poses")].foldl (FS.apply D) fs
    fs'.dirs path ∧ fs'.dirs (path ++ "/images") ∧ fs'.dirs (path ++ "/poses") :=
  mkdirs_dirs D fs path (hD _) (hD _) (hD _) hdir

/-- The files after saving. -/
theorem saved_files (P : YamlPrinter) (D : Disk) (hD : ∀ p, ¬ D.fail p) (fs : FS Img) (path : String)
    (hdir : fs.dirs path ∨ fs.dirs (parentDir path)) (d : DataSet Img) :
    let fs' := (saveToDirectory P D fs path d).1
    fs'.files (indexFile path) = some (.yaml (indexNode d.images.length)) ∧
    (∀ (i : Nat) m, d.images[i]? = some m → fs'.files (imageFile path i) = some (.image m)) ∧
    (∀ (i : Nat) T, d.poses[i]? = some T → fs'.files (poseFile path i) = some (.yaml (encIso P T))) := by
  intro fs'
  have hfs' : fs' = (saveFiles P path d).foldl (FS.apply D)
      ([Action.mkdir path, .mkdir (path ++ "/images"), .mkdir (path ++ "/poses")].foldl (FS.apply D) fs) := by
    simp only [fs', saveToDirectory, saveActions, List.foldl_append]
  obtain ⟨o1, o2, o3⟩ := mkdirs_openable D hD fs path hdir
  rw [hfs']
  have hnd := saveFiles_nodup P path d
  refine ⟨?_, ?_, ?_⟩
  · refine fold_files_text hnd (by simp [saveFiles]) ⟨by rw [parentDir_indexFile]; exact o1, hD _⟩
  · intro i m hm
    refine fold_files_image hnd ?_ ⟨by rw [parentDir_imageFile]; exact o2, hD _⟩
    unfold saveFiles
    refine List.mem_append_left _ (List.mem_append_left _ (List.mem_map.2 ⟨(m, i), ?_, rfl⟩))
    rw [List.mk_mem_zipIdx_iff_getElem?]
    exact hm
  · intro i T hT
    refine fold_files_text hnd ?_ ⟨by rw [parentDir_poseFile]; exact o3, hD _⟩
    unfold saveFiles
    refine List.mem_append_left _ (List.mem_append_right _ (List.mem_map.2 ⟨(T, i), ?_, rfl⟩))
    rw [List.mk_mem_zipIdx_iff_getElem?]
    exact hT

/-- Loading a saved data set gives the poses and the converted images. -/
theorem load_saved (P : YamlPrinter) (hP : P.WF) (C : Codec Img) (D : Disk) (hD : ∀ p, ¬ D.fail p) (fs : FS Img)
    (path : String) (hdir : fs.dirs path ∨ fs.dirs (parentDir path)) (d : DataSet Img)
    (hlen : d.poses.length = d.images.length) (himg : ∀ m ∈ d.images, C.empty m = false)
    (hpose : ∀ T ∈ d.poses, RigidMotion T) :
    parseFromFile C (saveToDirectory P D fs path d).1 (indexFile path) =
      .ok (some ⟨d.images.map C.reread, d.poses⟩) := by
  obtain ⟨f1, f2, f3⟩ := saved_files P D hD fs path hdir d
  generalize (saveToDirectory P D fs path d).1 = fs' at f1 f2 f3
  have hparse : ∀ k, k ≤ d.images.length →
      Res.foldList (parseStep C fs' (indexNode d.images.length) path) {} (List.range k) =
        .ok ⟨(d.images.take k).map C.reread, d.poses.take k⟩ := by
    intro k
    induction k with
    | zero => intro _; rfl
    | succ k ih =>
      intro hk
      rw [List.range_succ, Res.foldList_append, ih (by omega), Res.ok_bind, Res.foldList_cons]
      obtain ⟨e1, e2⟩ := entryString_index (n := d.images.length) (i := k) (by omega)
      have hi : d.images[k]? = some d.images[k] := by simp
      have hp : d.poses[k]? = some d.poses[k] := by simp
      have hread : readImage C fs' (imageFile path k) = some (C.reread d.images[k]) := by
        unfold readImage
        rw [f2 k _ hi]
        simp [himg d.images[k] (by simp)]
      have hpos : tryLoadPoseFile fs' (poseFile path k) = .ok (some d.poses[k]) := by
        unfold tryLoadPoseFile loadPoseFile loadYaml
        rw [f3 k _ hp]
        simp [C63_isometry P hP d.poses[k] (hpose _ (by simp)), Res.tryCatch]
      unfold parseStep
      rw [e1, e2]
      simp only [Res.ok_bind, combine_image, combine_pose, hread, hpos, Res.foldList_nil]
      congr 2
      · rw [List.take_add_one, hi, List.map_append]; rfl
      · rw [List.take_add_one, hp]; rfl
  unfold parseFromFile loadYaml
  rw [f1]
  simp only [Res.ok_bind, rootPath_indexFile, parse, index_size]
  rw [hparse _ (Nat.le_refl _)]
  simp [Res.tryCatch, List.take_of_length_le, hlen]

/-- Saving and loading a data set with eight bit colour images and rigid poses, without write errors, returns it. Missing
from the full claim: other images. -/
theorem C75_partial (P : YamlPrinter) (hP : P.WF) (C : Codec Img) (D : Disk) (hD : ∀ p, ¬ D.fail p) (fs : FS Img)
    (path : String) (hdir : fs.dirs path ∨ fs.dirs (parentDir path)) (d : DataSet Img)
    (hlen : d.poses.length = d.images.length) (himg : ∀ m ∈ d.images, C.empty m = false ∧ C.reread m = m)
    (hpose : ∀ T ∈ d.poses, RigidMotion T) :
    parseFromFile C (saveToDirectory P D fs path d).1 (indexFile path) = .ok (some d) := by
  rw [load_saved P hP C D hD fs path hdir d hlen (fun m hm => (himg m hm).1) hpose]
  have : d.images.map C.reread = d.images := by
    conv_rhs => rw [← List.map_id d.images]
    exact List.map_congr_left fun m hm => (himg m hm).2
  rw [this]

/-- C75 for a directory in the working directory, given by its bare name, which is made if it is not there. Missing: images that change when they are
stored. -/
theorem C75_partial_bare (P : YamlPrinter) (hP : P.WF) (C : Codec Img) (D : Disk) (hD : ∀ p, ¬ D.fail p) (fs : FS Img)
    (path : String) (hbare : '/' ∉ path.toList) (hdir : fs.dirs ".") (d : DataSet Img)
    (hlen : d.poses.length = d.images.length) (himg : ∀ m ∈ d.images, C.empty m = false ∧ C.reread m = m)
    (hpose : ∀ T ∈ d.poses, RigidMotion T) :
    parseFromFile C (saveToDirectory P D fs path d).1 (indexFile path) = .ok (some d) :=
  C75_partial P hP C D hD fs path (.inr (by rw [parentDir, if_neg hbare]; exact hdir)) d hlen himg hpose

/-- The full claim fails for every data set with an image that is not preserved by reading it in colour (for example a
sixteen bit image). -/
theorem C75_negation (P : YamlPrinter) (hP : P.WF) (C : Codec Img) (D : Disk) (hD : ∀ p, ¬ D.fail p) (fs : FS Img)
    (path : String) (hdir : fs.dirs path ∨ fs.dirs (parentDir path)) (d : DataSet Img)
    (hlen : d.poses.length = d.images.length) (himg : ∀ m ∈ d.images, C.empty m = false)
    (hpose : ∀ T ∈ d.poses, RigidMotion T) (hconv : ∃ m ∈ d.images, C.reread m ≠ m) :
    parseFromFile C (saveToDirectory P D fs path d).1 (indexFile path) ≠ .ok (some d) := by
  rw [load_saved P hP C D hD fs path hdir d hlen himg hpose]
  intro h
  obtain ⟨m, hm, hne⟩ := hconv
  obtain ⟨i, hi⟩ := List.mem_iff_getElem?.1 hm
  injection h with h
  injection h with h
  have h1 : (d.images.map C.reread)[i]? = d.images[i]? := by
    have := congrArg DataSet.images h
    simp only at this
    rw [this]
  rw [List.getElem?_map, hi] at h1
  exact hne (Option.some.inj h1)

/-- A data set with two numbered images. -/
noncomputable def exData : DataSet Nat := ⟨[1, 2], [⟨1, ⟨1, 2, 3⟩⟩, ⟨1, ⟨4, 5, 6⟩⟩]⟩

theorem exData_rigid : ∀ T ∈ exData.poses, RigidMotion T := by
  have h : ∀ t : V3, RigidMotion ⟨1, t⟩ := fun t => (rigid_iff ⟨1, t⟩).1 M3.IsRot.one
  intro T hT
  simp only [exData, List.mem_cons, List.not_mem_nil, or_false] at hT
  rcases hT with rfl | rfl <;> exact h _

example (P : YamlPrinter) (hP : P.WF) :
    parseFromFile ⟨fun _ => false, id⟩ (saveToDirectory P ⟨fun _ => False⟩ ⟨fun p => p = ".", fun _ => none⟩ "calib" exData).1
      (indexFile "calib") = .ok (some exData) := by
  refine C75_partial P hP _ _ (fun _ h => h) _ _ (Or.inr ?_) _ rfl (fun _ _ => ⟨rfl, rfl⟩) exData_rigid
  show parentDir "calib" = "."
  decide

/-! ## C76 Interrupted save is not mistaken for a data set

Full statement: if saving to an empty directory is interrupted at any point before the index file is written, loading
reports failure. It holds before the index is opened, but between opening and writing the index file, loading succeeds
with a data set without images (`C76_negation`). -/

/-- The steps of a save before the index file is opened. -/
noncomputable def beforeIndex (P : YamlPrinter) (path : String) (d : DataSet Img) : List (Action Img) :=
  [.mkdir path, .mkdir (path ++ "/images"), .mkdir (path ++ "/poses")] ++
  ((d.images.zipIdx.map fun e => Action.image (imageFile path e.2) e.1) ++
  (d.poses.zipIdx.map fun e => Action.text (poseFile path e.2) (encIso P e.1)))

theorem saveActions_eq (P : YamlPrinter) (path : String) (d : DataSet Img) :
    saveActions P path d = beforeIndex P path d ++ [.text (indexFile path) (indexNode d.images.length)] := by
  unfold saveActions beforeIndex saveFiles
  simp only [List.append_assoc]

theorem beforeIndex_target (P : YamlPrinter) (path : String) (d : DataSet Img) :
    ∀ a ∈ beforeIndex P path d, a.target ≠ some (indexFile path) := by
  intro a ha
  unfold beforeIndex at ha
  simp only [List.cons_append, List.nil_append, List.mem_cons, List.mem_append, List.mem_map] at ha
  rcases ha with rfl | rfl | rfl | ⟨e, -, rfl⟩ | ⟨e, -, rfl⟩
  · simp [Action.target]
  · simp [Action.target]
  · simp [Action.target]
  · intro h; exact imageFile_ne_index _ _ (Option.some.inj h)
  · intro h; exact poseFile_ne_index _ _ (Option.some.inj h)

theorem interrupted_files_ne (D : Disk) (fs : FS Img) (a : Action Img) (q : String) (h : a.target ≠ some q) :
    (fs.interrupted D a).files q = fs.files q := by
  cases a with
  | mkdir p => rfl
  | image p m =>
    have : q ≠ p := fun e => h (by rw [e]; rfl)
    simp only [FS.interrupted]; split <;> simp [FS.set, this]
  | text p y =>
    have : q ≠ p := fun e => h (by rw [e]; rfl)
    simp only [FS.interrupted]; split <;> simp [FS.set, this]

theorem load_missing (C : Codec Img) (fs : FS Img) (path : String) (h : fs.files path = none) :
    parseFromFile C fs path = .ok none := by
  unfold parseFromFile loadYaml
  rw [h]
  rfl

/-- After any number of completed steps before the index is opened, and possibly one more step that was interrupted,
loading fails (whatever writes failed). Missing from the full claim: interruption while the index is being written. -/
theorem C76_partial (P : YamlPrinter) (C : Codec Img) (D : Disk) (fs : FS Img) (path : String) (d : DataSet Img)
    (hempty : fs.files (indexFile path) = none) (n : Nat) :
    parseFromFile C (((saveActions P path d).take n).foldl (FS.apply D) fs) (indexFile path) = .ok none ∨
      (saveActions P path d).length ≤ n := by
  by_cases h : (saveActions P path d).length ≤ n
  · exact Or.inr h
  · left
    apply load_missing
    rw [saveActions_eq, List.length_append, List.length_singleton] at h
    rw [saveActions_eq, List.take_append_of_le_length (by omega), fold_files_ne _ _ _ _ (fun a ha =>
      beforeIndex_target P path d a (List.mem_of_mem_take ha)), hempty]

theorem C76_partial_interrupted (P : YamlPrinter) (C : Codec Img) (D : Disk) (fs : FS Img) (path : String) (d : DataSet Img)
    (hempty : fs.files (indexFile path) = none) (n : Nat) (hn : n < (beforeIndex P path d).length) :
    parseFromFile C ((((saveActions P path d).take n).foldl (FS.apply D) fs).interrupted D ((beforeIndex P path d)[n]))
      (indexFile path) = .ok none := by
  apply load_missing
  rw [interrupted_files_ne _ _ _ _ (beforeIndex_target P path d _ (List.getElem_mem _)), saveActions_eq,
    List.take_append_of_le_length (by omega), fold_files_ne _ _ _ _ (fun a ha =>
      beforeIndex_target P path d a (List.mem_of_mem_take ha)), hempty]

/-- Interrupted between opening and writing the index, every save leaves a directory that loads as an empty data set. -/
theorem C76_negation (P : YamlPrinter) (C : Codec Img) (D : Disk) (hD : ∀ p, ¬ D.fail p) (fs : FS Img) (path : String)
    (hdir : fs.dirs path ∨ fs.dirs (parentDir path)) (d : DataSet Img) :
    parseFromFile C (((beforeIndex P path d).foldl (FS.apply D) fs).interrupted D
      (.text (indexFile path) (indexNode d.images.length))) (indexFile path) = .ok (some {}) := by
  have ho : ((beforeIndex P path d).foldl (FS.apply D) fs).openable D (indexFile path) := by
    refine ⟨?_, hD _⟩
    rw [parentDir_indexFile]
    unfold beforeIndex
    rw [List.foldl_append]
    exact fold_dirs _ _ _ _ (mkdirs_openable D hD fs path hdir).1
  unfold parseFromFile loadYaml
  simp [FS.interrupted, ho, FS.set, parse, Yaml.size, Res.tryCatch]

example : (⟨fun p => p = ".", fun _ => none⟩ : FS Nat).files (indexFile "calib") = none := rfl

/-! ## C77 Loaded data sets are aligned -/

theorem tryCatch_ok_iff {α : Type} (r : Res α) (sel : Exc → Bool) (h a : α) :
    r.tryCatch sel h = .ok a ↔ r = .ok a ∨ (a = h ∧ ∃ e, sel e = true ∧ r = .throw e) := by
  unfold Res.tryCatch
  cases r with
  | ok b => simp
  | throw e =>
    simp only
    split
    · next hs =>
      constructor
      · intro he; cases he; exact Or.inr ⟨rfl, e, hs, rfl⟩
      · rintro (he | ⟨rfl, -⟩)
        · cases he
        · rfl
    · next hs =>
      constructor
      · intro he; cases he
      · rintro (he | ⟨-, e', hs', he⟩)
        · cases he
        · cases he; exact absurd hs' hs
  | abort => simp
  | ub => simp

theorem loadPoseFile_ok_iff (fs : FS Img) (p : String) (T : Iso) :
    loadPoseFile fs p = .ok T ↔ ∃ y, fs.files p = some (.yaml y) ∧ decIso y = .ok T := by
  unfold loadPoseFile loadYaml
  cases hf : fs.files p with
  | none => simp
  | some f =>
    cases f with
    | image m => simp
    | broken => simp
    | yaml y =>
      simp only [Res.ok_bind, Option.some.injEq, File.yaml.injEq, exists_eq_left']
      cases hd : decIso y with
      | ok b => simp
      | throw e => cases e <;> simp
      | abort => simp
      | ub => simp

theorem tryLoadPoseFile_some_iff (fs : FS Img) (p : String) (T : Iso) :
    tryLoadPoseFile fs p = .ok (some T) ↔ ∃ y, fs.files p = some (.yaml y) ∧ decIso y = .ok T := by
  unfold tryLoadPoseFile
  rw [tryCatch_ok_iff, Res.bind_ok_iff]
  constructor
  · rintro (⟨a, h1, h2⟩ | ⟨h, -⟩)
    · cases h2; exact (loadPoseFile_ok_iff fs p T).1 h1
    · cases h
  · intro h
    exact Or.inl ⟨T, (loadPoseFile_ok_iff fs p T).2 h, rfl⟩

theorem readImage_some_iff (C : Codec Img) (fs : FS Img) (p : String) (m : Img) :
    readImage C fs p = some m ↔ ∃ m', fs.files p = some (.image m') ∧ C.empty m' = false ∧ m = C.reread m' := by
  unfold readImage
  cases hf : fs.files p with
  | none => simp
  | some f =>
    cases f with
    | yaml y => simp
    | broken => simp
    | image m' =>
      simp only [Option.some.injEq, File.image.injEq, exists_eq_left']
      cases he : C.empty m' with
      | true => simp
      | false => simp [eq_comm]

theorem parseStep_ok {C : Codec Img} {fs : FS Img} {root : Yaml} {dir : String} {d d' : DataSet Img} {i : Nat}
    (h : parseStep C fs root dir d i = .ok d') :
    (d' = d ∧ ¬ ∃ e, EntryData C fs root dir i e) ∨
      ∃ e, EntryData C fs root dir i e ∧ d' = ⟨d.images ++ [e.1], d.poses ++ [e.2]⟩ := by
  unfold parseStep at h
  rw [Res.bind_ok_iff] at h
  obtain ⟨ip, h1, h⟩ := h
  rw [Res.bind_ok_iff] at h
  obtain ⟨pp, h2, h⟩ := h
  cases hr : readImage C fs (combine dir ip) with
  | none =>
    rw [hr] at h
    cases h
    left
    refine ⟨rfl, ?_⟩
    rintro ⟨e, ip', pp', m, y, g1, g2, g3, g4, g5, -⟩
    rw [h1] at g1
    cases g1
    have := (readImage_some_iff C fs (combine dir ip) e.1).2 ⟨m, g3, g4, g5⟩
    rw [hr] at this
    cases this
  | some m =>
    rw [hr] at h
    simp only at h
    rw [Res.bind_ok_iff] at h
    obtain ⟨p, h3, h⟩ := h
    cases p with
    | none =>
      cases h
      left
      refine ⟨rfl, ?_⟩
      rintro ⟨e, ip', pp', m, y, g1, g2, g3, g4, g5, g6, g7⟩
      rw [h2] at g2
      cases g2
      have := (tryLoadPoseFile_some_iff fs (combine dir pp) e.2).2 ⟨y, g6, g7⟩
      rw [h3] at this
      cases this
    | some T =>
      cases h
      right
      obtain ⟨m', g3, g4, g5⟩ := (readImage_some_iff C fs _ m).1 hr
      obtain ⟨y, g6, g7⟩ := (tryLoadPoseFile_some_iff fs _ T).1 h3
      exact ⟨(m, T), ⟨ip, pp, m', y, h1, h2, g3, g4, g5, g6, g7⟩, rfl⟩

/-- A loaded data set has as many poses as images, and consists of the readable entries of the index in their order:
image and pose number `k` come from the same entry, entries are used at most once and in order, and every entry whose two
files can be read is used. -/
theorem C77_aligned (C : Codec Img) (fs : FS Img) (path : String) (d : DataSet Img)
    (h : parseFromFile C fs path = .ok (some d)) :
    ∃ root, fs.files path = some (.yaml root) ∧ d.images.length = d.poses.length ∧
      ∃ js : List Nat, js.Pairwise (· < ·) ∧ (∀ j ∈ js, j < root.size) ∧
        List.Forall₂ (EntryData C fs root (rootPath path)) js (d.images.zip d.poses) ∧
        ∀ j, j < root.size → (∃ e, EntryData C fs root (rootPath path) j e) → j ∈ js := by
  unfold parseFromFile at h
  rw [tryCatch_ok_iff] at h
  rcases h with h | ⟨h, -⟩
  swap
  · cases h
  rw [Res.bind_ok_iff] at h
  obtain ⟨root, hroot, h⟩ := h
  rw [Res.bind_ok_iff] at h
  obtain ⟨d', hd', h⟩ := h
  cases h
  have hfile : fs.files path = some (.yaml root) := by
    unfold loadYaml at hroot
    split at hroot
    · next y hy => cases hroot; exact hy
    · cases hroot
  refine ⟨root, hfile, ?_⟩
  generalize rootPath path = dir at hd' ⊢
  unfold parse at hd'
  have key : ∀ k (d : DataSet Img), Res.foldList (parseStep C fs root dir) {} (List.range k) = .ok d →
      d.images.length = d.poses.length ∧
      ∃ js : List Nat, js.Pairwise (· < ·) ∧ (∀ j ∈ js, j < k) ∧
        List.Forall₂ (EntryData C fs root dir) js (d.images.zip d.poses) ∧
        ∀ j, j < k → (∃ e, EntryData C fs root dir j e) → j ∈ js := by
    intro k
    induction k with
    | zero =>
      intro d hd
      cases hd
      exact ⟨rfl, [], .nil, by simp, .nil, by simp⟩
    | succ k ih =>
      intro d hd
      rw [List.range_succ, Res.foldList_append, Res.bind_ok_iff] at hd
      obtain ⟨d0, h0, hd⟩ := hd
      rw [Res.foldList_cons, Res.bind_ok_iff] at hd
      obtain ⟨d1, h1, hd⟩ := hd
      cases hd
      obtain ⟨hl, js, hp, hlt, hf, hall⟩ := ih d0 h0
      rcases parseStep_ok h1 with ⟨rfl, hno⟩ | ⟨e, he, rfl⟩
      · refine ⟨hl, js, hp, fun j hj => by have := hlt j hj; omega, hf, ?_⟩
        intro j hj hje
        by_cases hjk : j = k
        · subst hjk; exact absurd hje hno
        · exact hall j (by omega) hje
      · refine ⟨by simp [hl], js ++ [k], ?_, ?_, ?_, ?_⟩
        · rw [List.pairwise_append]
          refine ⟨hp, by simp, ?_⟩
          intro a ha b hb
          rw [List.mem_singleton.1 hb]
          exact hlt a ha
        · intro j hj
          rcases List.mem_append.1 hj with hj | hj
          · have := hlt j hj; omega
          · rw [List.mem_singleton.1 hj]; omega
        · have hz : (d0.images ++ [e.1]).zip (d0.poses ++ [e.2]) = d0.images.zip d0.poses ++ [(e.1, e.2)] := by
            rw [List.zip_append hl]; rfl
          rw [hz]
          exact List.rel_append hf (.cons he .nil)
        · intro j hj hje
          by_cases hjk : j = k
          · subst hjk; simp
          · exact List.mem_append_left _ (hall j (by omega) hje)
  exact key root.size d hd'

/-! ## C78 Save reports failure

Full statement: `saveToDirectory` returns false when a file could not be written. It always returns true. -/

/-- If the directories can be made: `true` is returned, every file that can be written is stored with its content, and every
file that cannot be written has the content it had before. So the answer is right if every file can be written. Missing: the
answer `false` otherwise, see `C78_negation`. -/
theorem C78_partial (P : YamlPrinter) (D : Disk) (fs : FS Img) (path : String) (d : DataSet Img) (hD0 : ¬ D.fail path)
    (hD1 : ¬ D.fail (path ++ "/images")) (hD2 : ¬ D.fail (path ++ "/poses"))
    (hdir : fs.dirs path ∨ fs.dirs (parentDir path)) :
    ∃ fs', saveToDirectory P D fs path d = (fs', true) ∧
      (¬ D.fail (indexFile path) → fs'.files (indexFile path) = some (.yaml (indexNode d.images.length))) ∧
      (∀ (i : Nat) m, d.images[i]? = some m → ¬ D.fail (imageFile path i) →
        fs'.files (imageFile path i) = some (.image m)) ∧
      (∀ (i : Nat) T, d.poses[i]? = some T → ¬ D.fail (poseFile path i) →
        fs'.files (poseFile path i) = some (.yaml (encIso P T))) ∧
      ∀ q, D.fail q → fs'.files q = fs.files q := by
  refine ⟨_, rfl, ?_, ?_, ?_, ?_⟩
  all_goals
    obtain ⟨o1, o2, o3⟩ := mkdirs_dirs D fs path hD0 hD1 hD2 hdir
    have hnd := saveFiles_nodup P path d
    simp only [saveActions, List.foldl_append]
  · intro hD
    exact fold_files_text hnd (by simp [saveFiles]) ⟨by rw [parentDir_indexFile]; exact o1, hD⟩
  · intro i m hm hD
    refine fold_files_image hnd ?_ ⟨by rw [parentDir_imageFile]; exact o2, hD⟩
    unfold saveFiles
    refine List.mem_append_left _ (List.mem_append_left _ (List.mem_map.2 ⟨(m, i), ?_, rfl⟩))
    rw [List.mk_mem_zipIdx_iff_getElem?]
    exact hm
  · intro i T hT hD
    refine fold_files_text hnd ?_ ⟨by rw [parentDir_poseFile]; exact o3, hD⟩
    unfold saveFiles
    refine List.mem_append_left _ (List.mem_append_right _ (List.mem_map.2 ⟨(T, i), ?_, rfl⟩))
    rw [List.mk_mem_zipIdx_iff_getElem?]
    exact hT
  · intro q hq
    rw [← List.foldl_append]
    generalize [Action.mkdir path, .mkdir (path ++ "/images"), .mkdir (path ++ "/poses")] ++ saveFiles P path d = acts
    clear o1 o2 o3 hdir
    induction acts generalizing fs with
    | nil => rfl
    | cons a l ih =>
      rw [List.foldl_cons, ih]
      cases a <;> simp only [FS.apply] <;> split
      all_goals first
        | rfl
        | (next ho =>
            simp only [FS.set]
            rw [if_neg]
            rintro rfl
            exact ho.2 hq)

/-- A disk on which one image cannot be written. -/
example : ∃ (D : Disk) (path : String), ¬ D.fail path ∧ ¬ D.fail (path ++ "/images") ∧ ¬ D.fail (path ++ "/poses") ∧
    D.fail (imageFile path 0) :=
  ⟨⟨fun p => p = imageFile "d" 0⟩, "d", by decide, by decide, by decide, rfl⟩

/-- Even if nothing at all can be written, saving reports success (and leaves the disk as it was). -/
theorem C78_negation (P : YamlPrinter) (D : Disk) (hD : ∀ p, D.fail p) (fs : FS Img) (path : String) (d : DataSet Img) :
    saveToDirectory P D fs path d = (fs, true) := by
  unfold saveToDirectory
  congr 1
  induction saveActions P path d with
  | nil => rfl
  | cons a l ih =>
    rw [List.foldl_cons]
    have : fs.apply D a = fs := by
      cases a <;> simp only [FS.apply] <;> rw [if_neg (fun h => h.2 (hD _))]
    rw [this, ih]

end RCT
