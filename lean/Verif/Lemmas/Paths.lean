import Verif.Model.DataSet
import Verif.Props.Reports

/-!
# Lemmas about paths and the file system
-/

namespace RCT

theorem beforeSlash_append (d n : List Char) (h : '/' ∉ n) : beforeSlash (d ++ '/' :: n) = d := by
  unfold beforeSlash
  rw [List.reverse_append, List.reverse_cons, List.append_assoc, List.dropWhile_append_of_pos]
  · simp
  · intro a ha
    have : a ≠ '/' := by
      rintro rfl
      exact h (by simpa using ha)
    simpa using this

theorem slash_toList : "/".toList = ['/'] := by decide

theorem parentDir_append (d n : String) (h : '/' ∉ n.toList) : parentDir (d ++ "/" ++ n) = d := by
  unfold parentDir
  have hl : (d ++ "/" ++ n).toList = d.toList ++ '/' :: n.toList := by
    simp [String.toList_append, slash_toList]
  rw [hl, if_pos (by simp), beforeSlash_append _ _ h]
  simp

theorem rootPath_append (d n : String) (h : '/' ∉ n.toList) : rootPath (d ++ "/" ++ n) = d := by
  unfold rootPath
  have hl : (d ++ "/" ++ n).toList = d.toList ++ '/' :: n.toList := by
    simp [String.toList_append, slash_toList]
  rw [hl, if_pos (by simp), beforeSlash_append _ _ h]
  simp

theorem slash_not_in_nat (n : Nat) : '/' ∉ (toString n).toList := by
  change '/' ∉ n.repr.toList
  rw [Nat.toList_repr]
  intro h
  have := Nat.isDigit_of_mem_toDigits (by omega) (by omega) h
  revert this
  decide

theorem imageFile_eq (path : String) (i : Nat) :
    imageFile path i = (path ++ "/images") ++ "/" ++ (toString i ++ ".png") := by
  unfold imageFile
  have : "/images/" = "/images" ++ "/" := by decide
  rw [this]
  simp only [String.append_assoc]

theorem poseFile_eq (path : String) (i : Nat) :
    poseFile path i = (path ++ "/poses") ++ "/" ++ (toString i ++ ".yaml") := by
  unfold poseFile
  have : "/poses/" = "/poses" ++ "/" := by decide
  rw [this]
  simp only [String.append_assoc]

theorem indexFile_eq (path : String) : indexFile path = path ++ "/" ++ "data.yaml" := by
  unfold indexFile
  have : "/data.yaml" = "/" ++ "data.yaml" := by decide
  rw [this]
  simp only [String.append_assoc]

theorem parentDir_imageFile (path : String) (i : Nat) : parentDir (imageFile path i) = path ++ "/images" := by
  rw [imageFile_eq]
  apply parentDir_append
  rw [String.toList_append]
  have h1 := slash_not_in_nat i
  have h2 : '/' ∉ ".png".toList := by decide
  intro h
  rcases List.mem_append.1 h with h | h
  · exact h1 h
  · exact h2 h

theorem parentDir_poseFile (path : String) (i : Nat) : parentDir (poseFile path i) = path ++ "/poses" := by
  rw [poseFile_eq]
  apply parentDir_append
  rw [String.toList_append]
  have h1 := slash_not_in_nat i
  have h2 : '/' ∉ ".yaml".toList := by decide
  intro h
  rcases List.mem_append.1 h with h | h
  · exact h1 h
  · exact h2 h

theorem parentDir_indexFile (path : String) : parentDir (indexFile path) = path := by
  rw [indexFile_eq]
  exact parentDir_append _ _ (by decide)

theorem rootPath_indexFile (path : String) : rootPath (indexFile path) = path := by
  rw [indexFile_eq]
  exact rootPath_append _ _ (by decide)

theorem parentDir_images (path : String) : parentDir (path ++ "/images") = path := by
  have : "/images" = "/" ++ "images" := by decide
  rw [this, ← String.append_assoc]
  exact parentDir_append _ _ (by decide)

theorem parentDir_poses (path : String) : parentDir (path ++ "/poses") = path := by
  have : "/poses" = "/" ++ "poses" := by decide
  rw [this, ← String.append_assoc]
  exact parentDir_append _ _ (by decide)

theorem combine_image (path : String) (i : Nat) :
    combine path ("images/" ++ toString i ++ ".png") = imageFile path i := by
  unfold combine imageFile
  have : "/images/" = "/" ++ "images/" := by decide
  rw [this]
  simp only [String.append_assoc]

theorem combine_pose (path : String) (i : Nat) :
    combine path ("poses/" ++ toString i ++ ".yaml") = poseFile path i := by
  unfold combine poseFile
  have : "/poses/" = "/" ++ "poses/" := by decide
  rw [this]
  simp only [String.append_assoc]

theorem imageFile_inj {path : String} {i j : Nat} (h : imageFile path i = imageFile path j) : i = j := by
  unfold imageFile at h
  have e := congrArg String.toList h
  simp only [String.toList_append, List.append_assoc] at e
  have e := List.append_cancel_left (List.append_cancel_left e)
  exact toString_nat_inj (String.toList_inj.1 (List.append_cancel_right e))

theorem poseFile_inj {path : String} {i j : Nat} (h : poseFile path i = poseFile path j) : i = j := by
  unfold poseFile at h
  have e := congrArg String.toList h
  simp only [String.toList_append, List.append_assoc] at e
  have e := List.append_cancel_left (List.append_cancel_left e)
  exact toString_nat_inj (String.toList_inj.1 (List.append_cancel_right e))

theorem imageFile_ne_poseFile (path : String) (i j : Nat) : imageFile path i ≠ poseFile path j := by
  intro h
  unfold imageFile poseFile at h
  have e := congrArg String.toList h
  simp only [String.toList_append, List.append_assoc] at e
  have e := List.append_cancel_left e
  have h1 : "/images/".toList = '/' :: 'i' :: "mages/".toList := by decide
  have h2 : "/poses/".toList = '/' :: 'p' :: "oses/".toList := by decide
  rw [h1, h2] at e
  simp only [List.cons_append, List.cons.injEq] at e
  exact absurd e.2.1 (by decide)

theorem imageFile_ne_index (path : String) (i : Nat) : imageFile path i ≠ indexFile path := by
  intro h
  unfold imageFile indexFile at h
  have e := congrArg String.toList h
  simp only [String.toList_append, List.append_assoc] at e
  have e := List.append_cancel_left e
  have h1 : "/images/".toList = '/' :: 'i' :: "mages/".toList := by decide
  have h2 : "/data.yaml".toList = '/' :: 'd' :: "ata.yaml".toList := by decide
  rw [h1, h2] at e
  simp only [List.cons_append, List.cons.injEq] at e
  exact absurd e.2.1 (by decide)

theorem poseFile_ne_index (path : String) (i : Nat) : poseFile path i ≠ indexFile path := by
  intro h
  unfold poseFile indexFile at h
  have e := congrArg String.toList h
  simp only [String.toList_append, List.append_assoc] at e
  have e := List.append_cancel_left e
  have h1 : "/poses/".toList = '/' :: 'p' :: "oses/".toList := by decide
  have h2 : "/data.yaml".toList = '/' :: 'd' :: "ata.yaml".toList := by decide
  rw [h1, h2] at e
  simp only [List.cons_append, List.cons.injEq] at e
  exact absurd e.2.1 (by decide)

/-! ### File system steps -/

variable {Img : Type}

/-- The file a step writes. -/
def Action.target : Action Img → Option String
  | .mkdir _ => none
  | .image p _ => some p
  | .text p _ => some p

/-- The path a step changes. -/
def Action.path : Action Img → String
  | .mkdir p => p
  | .image p _ => p
  | .text p _ => p

theorem apply_dirs (D : Disk) (fs : FS Img) (a : Action Img) (q : String) (h : fs.dirs q) : (fs.apply D a).dirs q := by
  cases a <;> simp only [FS.apply] <;> split <;> simp_all [FS.set]

theorem fold_dirs (D : Disk) (acts : List (Action Img)) (fs : FS Img) (q : String) (h : fs.dirs q) :
    (acts.foldl (FS.apply D) fs).dirs q := by
  induction acts generalizing fs with
  | nil => exact h
  | cons a acts ih => exact ih _ (apply_dirs D fs a q h)

theorem apply_files_ne (D : Disk) (fs : FS Img) (a : Action Img) (q : String) (h : a.target ≠ some q) :
    (fs.apply D a).files q = fs.files q := by
  cases a with
  | mkdir p => simp only [FS.apply]; split <;> rfl
  | image p m =>
    have : q ≠ p := fun e => h (by rw [e]; rfl)
    simp only [FS.apply]; split <;> simp [FS.set, this]
  | text p y =>
    have : q ≠ p := fun e => h (by rw [e]; rfl)
    simp only [FS.apply]; split <;> simp [FS.set, this]

theorem fold_files_ne (D : Disk) (acts : List (Action Img)) (fs : FS Img) (q : String)
    (h : ∀ a ∈ acts, a.target ≠ some q) : (acts.foldl (FS.apply D) fs).files q = fs.files q := by
  induction acts generalizing fs with
  | nil => rfl
  | cons a acts ih =>
    rw [List.foldl_cons, ih _ (fun b hb => h b (by simp [hb])), apply_files_ne D fs a q (h a (by simp))]

/-- A file that is written once, to an accessible path, has the written content afterwards. -/
theorem fold_files_image {D : Disk} {acts : List (Action Img)} {fs : FS Img} {p : String} {m : Img}
    (hnd : (acts.map Action.target).Nodup) (hm : Action.image p m ∈ acts) (ho : fs.openable D p) :
    (acts.foldl (FS.apply D) fs).files p = some (.image m) := by
  obtain ⟨A, B, rfl⟩ := List.append_of_mem hm
  rw [List.foldl_append, List.foldl_cons, fold_files_ne]
  · have : (A.foldl (FS.apply D) fs).openable D p := ⟨fold_dirs D A fs _ ho.1, ho.2⟩
    simp [FS.apply, this, FS.set]
  · intro a ha he
    rw [List.map_append, List.map_cons, List.nodup_append] at hnd
    have := (List.nodup_cons.1 hnd.2.1).1
    exact this (List.mem_map.2 ⟨a, ha, he⟩)

theorem fold_files_text {D : Disk} {acts : List (Action Img)} {fs : FS Img} {p : String} {y : Yaml}
    (hnd : (acts.map Action.target).Nodup) (hm : Action.text p y ∈ acts) (ho : fs.openable D p) :
    (acts.foldl (FS.apply D) fs).files p = some (.yaml y) := by
  obtain ⟨A, B, rfl⟩ := List.append_of_mem hm
  rw [List.foldl_append, List.foldl_cons, fold_files_ne]
  · have : (A.foldl (FS.apply D) fs).openable D p := ⟨fold_dirs D A fs _ ho.1, ho.2⟩
    simp [FS.apply, this, FS.set]
  · intro a ha he
    rw [List.map_append, List.map_cons, List.nodup_append] at hnd
    have := (List.nodup_cons.1 hnd.2.1).1
    exact this (List.mem_map.2 ⟨a, ha, he⟩)

theorem zipIdx_nodup {α β : Type} (l : List α) (f : Nat → β) (hf : ∀ i j, f i = f j → i = j) :
    (l.zipIdx.map fun e => f e.2).Nodup := by
  have : (l.zipIdx.map fun e => f e.2) = (List.range' 0 l.length).map f := by
    rw [← List.zipIdx_map_snd, List.map_map]
    rfl
  rw [this]
  refine List.Nodup.map_on (fun a _ b _ h => hf a b h) ?_
  exact List.nodup_range'

/-- All files of a save are different. -/
theorem saveFiles_nodup (P : YamlPrinter) (path : String) (d : DataSet Img) :
    ((saveFiles P path d).map Action.target).Nodup := by
  unfold saveFiles
  simp only [List.map_append, List.map_map, List.map_cons, List.map_nil]
  have e1 : (d.images.zipIdx.map (Action.target ∘ fun e => Action.image (imageFile path e.2) e.1)) =
      d.images.zipIdx.map fun e => some (imageFile path e.2) := rfl
  have e2 : (d.poses.zipIdx.map ((Action.target : Action Img → _) ∘ fun e =>
      Action.text (poseFile path e.2) (encIso P e.1))) = d.poses.zipIdx.map fun e => some (poseFile path e.2) := rfl
  rw [e1, e2, List.nodup_append, List.nodup_append]
  refine ⟨⟨zipIdx_nodup _ (fun i => some (imageFile path i)) (fun i j h => imageFile_inj (Option.some.inj h)),
    zipIdx_nodup _ (fun i => some (poseFile path i)) (fun i j h => poseFile_inj (Option.some.inj h)), ?_⟩, by simp, ?_⟩
  · intro a ha b hb hab
    obtain ⟨x, -, rfl⟩ := List.mem_map.1 ha
    obtain ⟨y, -, rfl⟩ := List.mem_map.1 hb
    exact imageFile_ne_poseFile _ _ _ (Option.some.inj hab)
  · intro a ha b hb hab
    simp only [List.mem_singleton] at hb
    subst hb
    rcases List.mem_append.1 ha with ha | ha
    · obtain ⟨x, -, rfl⟩ := List.mem_map.1 ha
      exact imageFile_ne_index _ _ (Option.some.inj hab)
    · obtain ⟨x, -, rfl⟩ := List.mem_map.1 ha
      exact poseFile_ne_index _ _ (Option.some.inj hab)

end RCT
