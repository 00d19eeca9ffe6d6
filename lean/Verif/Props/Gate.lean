import Verif.Lemmas.Collect
import Verif.Props.Homography
import Verif.Props.DataSet

/-!
# C103, C106, C108: loading by bare name, unreadable data sets, homography gate
-/

namespace RCT

open Spec

variable {Img : Type}

/-! ### C103

Full statement: `parseFromFile C fs name = parseFromFile C fs ("./" ++ name)` for every name without a slash. -/

private theorem fold_nothing {C : Codec Img} {fs : FS Img} {root : Yaml} {dir : String}
    (hno : ∀ rel, fs.files (combine dir rel) = none) (l : List Nat) (d d' : DataSet Img)
    (h : Res.foldList (parseStep C fs root dir) d l = .ok d') : d' = d := by
  induction l with
  | nil => cases h; rfl
  | cons i l ih =>
    rw [Res.foldList_cons, Res.bind_ok_iff] at h
    obtain ⟨d1, h1, h⟩ := h
    have : d1 = d := by
      unfold parseStep at h1
      rw [Res.bind_ok_iff] at h1
      obtain ⟨ip, -, h1⟩ := h1
      rw [Res.bind_ok_iff] at h1
      obtain ⟨pp, -, h1⟩ := h1
      unfold readImage at h1
      rw [hno ip] at h1
      cases h1; rfl
    subst this
    exact ih h

/-- The statement fails for every data set with at least one image: given by its bare name, the index file itself is taken
for the directory, no image is found and the data set loads as empty without any error (nothing lies below a file). -/
theorem C103_negation (C : Codec Img) (fs : FS Img) (name : String) (hname : '/' ∉ name.toList)
    (hbelow : ∀ p rel, fs.files p ≠ none → fs.files (combine p rel) = none)
    (hdot : ∀ p, fs.files ("./" ++ p) = fs.files p)
    (d : DataSet Img) (hload : parseFromFile C fs ("./" ++ name) = .ok (some d)) (hd : d.images ≠ []) :
    parseFromFile C fs name ≠ parseFromFile C fs ("./" ++ name) ∧
    ∀ d', parseFromFile C fs name = .ok (some d') → d' = {} := by
  have hroot : rootPath name = name := by unfold rootPath; rw [if_neg hname]
  have key : ∀ d', parseFromFile C fs name = .ok (some d') → d' = {} := by
    intro d' h'
    unfold parseFromFile at h'
    rw [hroot, tryCatch_ok_iff] at h'
    rcases h' with h' | ⟨h', -⟩
    swap
    · cases h'
    rw [Res.bind_ok_iff] at h'
    obtain ⟨root, hr, h'⟩ := h'
    rw [Res.bind_ok_iff] at h'
    obtain ⟨d'', hp, h'⟩ := h'
    cases h'
    have hfile : fs.files name ≠ none := by
      intro hn
      unfold loadYaml at hr
      rw [hn] at hr
      cases hr
    exact fold_nothing (fun rel => hbelow name rel hfile) _ _ _ hp
  refine ⟨fun heq => ?_, key⟩
  rw [hload] at heq
  have := key d heq
  rw [this] at hd
  exact hd rfl

/-- Proved part of C103: whether the index is readable at all does not depend on how it is named. -/
theorem C103_partial (C : Codec Img) (fs : FS Img) (name : String) (hdot : ∀ p, fs.files ("./" ++ p) = fs.files p)
    (h : ∀ y, fs.files name ≠ some (.yaml y)) :
    parseFromFile C fs name = .ok none ∧ parseFromFile C fs ("./" ++ name) = .ok none := by
  have key : ∀ p, fs.files p = fs.files name → parseFromFile C fs p = .ok none := by
    intro p hp
    have : loadYaml fs p = .throw .yaml := by
      unfold loadYaml
      rw [hp]
      cases hf : fs.files name with
      | none => rfl
      | some f => cases f with
        | yaml y => exact absurd hf (h y)
        | image m => rfl
        | broken => rfl
    unfold parseFromFile
    rw [this]
    rfl
  exact ⟨key _ rfl, key _ (hdot name)⟩

/-! ### C106 -/

/-- The multi step tool, the PnP tool for several cameras and the tools for one camera: an unreadable data set gives an
exception, which the tools report; a readable one is used as it is. -/
theorem C106_partial (C : Codec Img) (fs : FS Img) (path : String) :
    (parseFromFile C fs path = .ok none → loadChecked C fs path = .throw .runtimeError) ∧
    (∀ d, loadChecked C fs path = .ok d ↔ parseFromFile C fs path = .ok (some d)) := by
  unfold loadChecked
  constructor
  · intro h; rw [h]; rfl
  · intro d
    rw [Res.bind_ok_iff]
    constructor
    · rintro ⟨o, ho, h⟩
      cases o with
      | none => cases h
      | some d' => cases h; exact ho
    · intro h; exact ⟨some d, h, rfl⟩

/-- The multi static camera tool dereferences the empty optional before testing it: for every unreadable data set the
behaviour is undefined. -/
theorem C106_negation (C : Codec Img) (fs : FS Img) (path : String) (h : parseFromFile C fs path = .ok none) :
    loadMultiStatic C fs path = .ub := by
  unfold loadMultiStatic; rw [h]; rfl

/-- A file system without any file: no data set can be read. -/
example : parseFromFile (Img := Nat) ⟨fun _ => false, id⟩ ⟨fun _ => True, fun _ => none⟩ "/data/cam0.yaml" = .ok none := rfl

/-! ### C108 -/

/-- The check never does anything but accept or throw `std::runtime_error`; it accepts exactly if there are at least twelve
correspondences and the mean of the errors computed for the sample, one per correspondence, is at most the threshold. -/
theorem C108_gate (solve : LuSolve) (draws : UniformInt) (hd : draws.WF) (threshold : ℝ) (cs : List Corr2)
    (hlen : cs.length < 2 ^ 64) :
    (cs.length < 12 → homographyCheck solve draws threshold cs = .throw .runtimeError) ∧
    (12 ≤ cs.length → ∃ sample errs, sample.length = cs.length / 3 ∧ (∀ i ∈ sample, i < cs.length) ∧
      homographyError solve cs (.ok sample) = .ok errs ∧ errs.length = cs.length ∧
      (errs.sum / cs.length ≤ threshold → homographyCheck solve draws threshold cs = .ok ()) ∧
      (threshold < errs.sum / cs.length → homographyCheck solve draws threshold cs = .throw .runtimeError)) := by
  unfold homographyCheck
  constructor
  · intro h
    rw [(C51_construct _ _).2 (by omega)]
    rfl
  · intro h
    obtain ⟨s, hs⟩ := (C51_construct cs.length (cs.length / 3)).1 (by omega)
    obtain ⟨l, hl, hll, -, hlt⟩ := C51_sample draws hd _ _ hlen s hs
    obtain ⟨errs, he, hel⟩ := C53_count solve cs l (by omega) hlt
    have hmean : accMean errs = some (errs.sum / cs.length) := by
      unfold accMean
      rw [if_neg (by omega), hel]
    rw [hs, Res.ok_bind, hl, he, Res.ok_bind, hmean]
    refine ⟨l, errs, hll, hlt, he, hel, fun hle => ?_, fun hlt' => ?_⟩
    · rw [if_neg]; simpa [costAbove] using hle
    · rw [if_pos]; exact hlt'

/-- Twelve correspondences and a generator that always draws the lower bound. -/
example : UniformInt.WF (fun a _ _ => a) ∧ (List.replicate 12 (⟨⟨0, 0⟩, ⟨0, 0, 0⟩⟩ : Corr2)).length < 2 ^ 64 :=
  ⟨fun _ _ _ h => ⟨Nat.le_refl _, h⟩, by norm_num⟩

end RCT
