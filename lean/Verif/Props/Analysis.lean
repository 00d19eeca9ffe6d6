import Verif.Model.Analysis
import Verif.Spec.Analysis
import Verif.Props.Accuracy
import Verif.Props.KinematicReport
import Verif.Props.Fit
import Verif.Props.Loaders
import Verif.Props.Plugins
import Verif.Props.Validation
import Verif.Props.Targets
import Verif.Props.Serialization
import Verif.Props.DHChain

/-!
# C136-C146: measurements, statistics and reports of the examples
-/

namespace RCT

open Spec

/-! ## Loading kinematic measurements -/

theorem isNum_iff {n : Yaml} {x : ℝ} : n.asReal = .ok x ↔ IsNum n x := asReal_ok_iff

theorem toMat_turns (q : Quat) : TurnsAs q.toMat q := by
  intro v
  ext <;> simp [Quat.toMat, M3.mulVec, Quat.vec, V3.cross, V3.smul] <;> ring

theorem turns_unique {R : M3} {q : Quat} (h : TurnsAs R q) : R = q.toMat :=
  M3.ext_mulVec fun v => (h v).trans (toMat_turns q v).symm

theorem loadJoints_ok {l : List (String × Yaml)} {k : String} {xs : List ℝ} (h : NumList l k xs) :
    loadJoints (.map l) k = .ok xs := by
  obtain ⟨ns, h1, h2⟩ := h
  unfold loadJoints
  simp only [Yaml.keyN, h1, Option.getD_some, Res.ok_bind, Yaml.size, Yaml.idx]
  rw [Res.mapList_ok_iff]
  rw [List.forall₂_iff_get]
  refine ⟨by simp [h2.length_eq], ?_⟩
  intro i hi hi'
  have hi0 : i < ns.length := by simpa using hi
  simp only [List.get_eq_getElem, List.getElem_range, List.getElem?_eq_getElem hi0, Yaml.asNode]
  exact isNum_iff.2 ((List.forall₂_iff_get.1 h2).2 i hi0 hi')

theorem loadMeasuredPose_ok {l pl : List (String × Yaml)} {T : Iso} {q : Quat} (h : l.lookup "pose" = some (.map pl))
    (hp : PoseEntry pl T q) : loadMeasuredPose (.map l) = .ok T := by
  obtain ⟨⟨_, k1, n1⟩, ⟨_, k2, n2⟩, ⟨_, k3, n3⟩, ⟨_, k4, n4⟩, ⟨_, k5, n5⟩, ⟨_, k6, n6⟩, ⟨_, k7, n7⟩, hR⟩ := hp
  unfold loadMeasuredPose
  simp only [Yaml.keyN, h, Option.getD_some, Res.ok_bind, k1, k2, k3, k4, k5, k6, k7, isNum_iff.2 n1, isNum_iff.2 n2,
    isNum_iff.2 n3, isNum_iff.2 n4, isNum_iff.2 n5, isNum_iff.2 n6, isNum_iff.2 n7, Res.ok.injEq]
  have hq := turns_unique hR
  obtain ⟨R, t⟩ := T
  simp only at hq ⊢
  subst hq
  refine Iso.ext ?_ ?_
  · simp [M3.one_mul]
  · ext <;> simp

theorem loadMeasurement_ok {n : Yaml} {m : KinMeas} (h : MeasEntry n m) : loadMeasurement n = .ok m := by
  obtain ⟨l, pl, q, rfl, h1, h2, h3, h4⟩ := h
  unfold loadMeasurement
  rw [loadJoints_ok h1, loadJoints_ok h2, loadMeasuredPose_ok h3 h4]
  rfl

/-- C136: a document of complete entries loads exactly, entry by entry, whatever the entries are called. -/
theorem C136_exact {Img : Type} (fs : FS Img) (path : String) (l : List (String × Yaml)) (ms : List KinMeas)
    (hf : fs.files path = some (.yaml (.map l))) (h : List.Forall₂ (fun e m => MeasEntry e.2 m) l ms) :
    loadMeasurements fs path = .ok ms := by
  unfold loadMeasurements loadYaml
  simp only [hf, Res.ok_bind, docEntries]
  have : Res.mapList loadDocEntry (l.map fun e => some e.2) = .ok ms := by
    rw [Res.mapList_ok_iff, List.forall₂_map_left_iff]
    exact h.imp fun _ _ he => loadMeasurement_ok he
  rw [this]

theorem OkOr.mapList {α β : Type} {e : Exc} {f : α → Res β} (l : List α) (h : ∀ a ∈ l, OkOr e (f a)) :
    OkOr e (Res.mapList f l) := by
  induction l with
  | nil => exact .inl ⟨[], rfl⟩
  | cons a l ih =>
    unfold Res.mapList
    exact OkOr.bind (h a (by simp)) fun b => OkOr.bind (ih fun x hx => h x (by simp [hx])) fun bs => .inl ⟨_, rfl⟩

theorem OkOr.keyN (n : Yaml) (k : String) : OkOr .yaml (n.keyN k) := by
  unfold Yaml.keyN
  split
  · exact .inl ⟨_, rfl⟩
  · exact .inr rfl
  · exact .inl ⟨_, rfl⟩
  · exact .inl ⟨_, rfl⟩

theorem OkOr.idx (n : Yaml) (i : Nat) : OkOr .yaml (n.idx i) := by
  unfold Yaml.idx
  split
  · exact .inl ⟨_, rfl⟩
  · exact .inr rfl
  · exact .inl ⟨_, rfl⟩
  · exact .inl ⟨_, rfl⟩

theorem OkOr.loadJoints (n : Yaml) (k : String) : OkOr .yaml (loadJoints n k) := by
  unfold RCT.loadJoints
  refine OkOr.bind (OkOr.keyN _ _) fun j => OkOr.mapList _ fun i _ => OkOr.bind (OkOr.idx _ _) ?_
  rintro (_ | m)
  · exact .inr rfl
  · exact OkOr.asReal m

theorem OkOr.loadMeasuredPose (n : Yaml) : OkOr .yaml (loadMeasuredPose n) := by
  unfold RCT.loadMeasuredPose
  refine OkOr.bind (OkOr.keyN _ _) fun p => ?_
  have h : ∀ k, OkOr .yaml ((p.keyN k).bind Yaml.asReal) := fun k => OkOr.bind (OkOr.keyN _ _) OkOr.asReal
  exact OkOr.bind (h _) fun _ => OkOr.bind (h _) fun _ => OkOr.bind (h _) fun _ => OkOr.bind (h _) fun _ =>
    OkOr.bind (h _) fun _ => OkOr.bind (h _) fun _ => OkOr.bind (h _) fun _ => .inl ⟨_, rfl⟩

theorem OkOr.loadMeasurement (n : Yaml) : OkOr .yaml (loadMeasurement n) := by
  unfold RCT.loadMeasurement
  exact OkOr.bind (OkOr.loadJoints _ _) fun _ => OkOr.bind (OkOr.loadJoints _ _) fun _ =>
    OkOr.bind (OkOr.loadMeasuredPose _) fun _ => .inl ⟨_, rfl⟩

/-- What the loader does with a document. -/
theorem loadMeasurements_cases {Img : Type} (fs : FS Img) (path : String) :
    (∃ y ms, fs.files path = some (.yaml y) ∧ loadMeasurements fs path = .ok ms ∧
      List.Forall₂ (fun e m => ∃ n, e = some n ∧ loadMeasurement n = .ok m) (docEntries y) ms) ∨
    (loadMeasurements fs path = .throw .badFile ∧
      ∀ y, fs.files path = some (.yaml y) → ∃ e ∈ docEntries y, ∀ n, e = some n → loadMeasurement n = .throw .yaml) := by
  unfold loadMeasurements loadYaml
  cases hf : fs.files path with
  | none => right; simp
  | some f =>
    cases f with
    | yaml y =>
      simp only [Res.ok_bind]
      have hstep : ∀ e : Option Yaml, OkOr .yaml (loadDocEntry e) := by
        rintro (_ | n)
        · exact .inr rfl
        · exact OkOr.loadMeasurement n
      rcases OkOr.mapList (docEntries y) (fun e _ => hstep e) with ⟨ms, hms⟩ | hms
      · left
        refine ⟨y, ms, rfl, by rw [hms], ?_⟩
        refine ((Res.mapList_ok_iff _ _ _).1 hms).imp ?_
        rintro (_ | n) m h
        · cases h
        · exact ⟨n, rfl, h⟩
      · right
        refine ⟨by rw [hms], ?_⟩
        rintro y' hy'
        simp only [Option.some.injEq, File.yaml.injEq] at hy'
        subst hy'
        by_contra hcon
        push Not at hcon
        have : ∀ e ∈ docEntries y, ∃ b, loadDocEntry e = .ok b := by
          intro e he
          obtain ⟨n, rfl, hn⟩ := hcon e he
          rcases OkOr.loadMeasurement n with ⟨a, ha⟩ | ha
          · exact ⟨a, ha⟩
          · exact absurd ha hn
        obtain ⟨ms, hms'⟩ := Res.mapList_returns this
        rw [hms'] at hms
        cases hms
    | image m => right; simp
    | broken => right; simp

/-- Every failure, including a missing or malformed file, is a `BadFileException`. -/
theorem C136_failure {Img : Type} (fs : FS Img) (path : String) :
    (∃ ms, loadMeasurements fs path = .ok ms) ∨ loadMeasurements fs path = .throw .badFile := by
  rcases loadMeasurements_cases fs path with ⟨y, ms, -, h, -⟩ | ⟨h, -⟩
  · exact .inl ⟨ms, h⟩
  · exact .inr h

/-- The number of measurements is the number of entries. -/
theorem C136_count {Img : Type} (fs : FS Img) (path : String) (l : List (String × Yaml)) (ms : List KinMeas)
    (hf : fs.files path = some (.yaml (.map l))) (h : loadMeasurements fs path = .ok ms) : ms.length = l.length := by
  rcases loadMeasurements_cases fs path with ⟨y, ms', hy, h', hl⟩ | ⟨h', -⟩
  · rw [hf] at hy
    cases hy
    rw [h] at h'
    cases h'
    have := hl.length_eq
    simp [docEntries] at this
    omega
  · rw [h] at h'; cases h'

/-- The pose that was read, in terms of the document. -/
theorem loadMeasuredPose_inv {n : Yaml} {T : Iso} (h : loadMeasuredPose n = .ok T) :
    ∃ l pl q, n = .map l ∧ l.lookup "pose" = some (.map pl) ∧ PoseEntry pl T q := by
  unfold loadMeasuredPose at h
  rw [Res.bind_ok_iff] at h
  obtain ⟨p, hp, h⟩ := h
  simp only [Res.bind_ok_iff] at h
  obtain ⟨x, ⟨_, a1, b1⟩, y, ⟨_, a2, b2⟩, z, ⟨_, a3, b3⟩, qw, ⟨_, a4, b4⟩, qx, ⟨_, a5, b5⟩, qy, ⟨_, a6, b6⟩, qz,
    ⟨_, a7, b7⟩, h⟩ := h
  have nullNo : ∀ x, Yaml.null.asReal ≠ .ok x := by intro x; simp [Yaml.asReal, Yaml.asRealN]
  cases p with
  | null => cases a1; exact absurd b1 (nullNo x)
  | scalar s => cases a1
  | seq l => cases a1; exact absurd b1 (nullNo x)
  | map pl =>
    have hn : ∃ l, n = .map l ∧ l.lookup "pose" = some (.map pl) := by
      cases n with
      | null => cases hp
      | scalar s => cases hp
      | seq l => cases hp
      | map l =>
        refine ⟨l, rfl, ?_⟩
        simp only [Yaml.keyN, Res.ok.injEq] at hp
        cases hl : l.lookup "pose" with
        | none => rw [hl] at hp; cases hp
        | some v => rw [hl, Option.getD_some] at hp; rw [hp]
    obtain ⟨l, rfl, hl⟩ := hn
    have look : ∀ {k : String} {n : Yaml} {x : ℝ}, (Yaml.map pl).keyN k = .ok n → n.asReal = .ok x →
        ∃ m, pl.lookup k = some m ∧ IsNum m x := by
      intro k n x ha hb
      simp only [Yaml.keyN, Res.ok.injEq] at ha
      cases hk : pl.lookup k with
      | none => rw [hk] at ha; cases ha; exact absurd hb (nullNo x)
      | some m => rw [hk, Option.getD_some] at ha; subst ha; exact ⟨m, rfl, isNum_iff.1 hb⟩
    simp only [Res.ok.injEq] at h
    have hT : T = ⟨Quat.toMat ⟨qw, qx, qy, qz⟩, ⟨x, y, z⟩⟩ := by
      rw [← h]
      refine Iso.ext ?_ ?_
      · simp [M3.one_mul]
      · ext <;> simp
    subst hT
    exact ⟨l, pl, ⟨qw, qx, qy, qz⟩, rfl, hl, look a1 b1, look a2 b2, look a3 b3, look a4 b4, look a5 b5, look a6 b6,
      look a7 b7, toMat_turns _⟩

/- C137, full statement: a document in which an entry lacks the joints of one chain or a number of the pose, or in which a
joint is not a number, is rejected. Entries without joints are accepted as measurements with no joint values, and a
document that is not a list of entries at all is accepted as an empty set: `C137_negation`, `C137_document_negation`. -/
/-- If the document is accepted, all entries are maps with a complete pose, and the joint values that are listed are
numbers. -/
theorem C137_partial {Img : Type} (fs : FS Img) (path : String) (l : List (String × Yaml)) (ms : List KinMeas)
    (hf : fs.files path = some (.yaml (.map l))) (h : loadMeasurements fs path = .ok ms) :
    List.Forall₂ (fun e m => ∃ el pl q, e.2 = .map el ∧ el.lookup "pose" = some (.map pl) ∧ PoseEntry pl m.cameraToTarget q ∧
      (∀ ns, el.lookup "target_joints" = some (.seq ns) → List.Forall₂ IsNum ns m.targetJoints) ∧
      ∀ ns, el.lookup "camera_joints" = some (.seq ns) → List.Forall₂ IsNum ns m.cameraJoints) l ms := by
  rcases loadMeasurements_cases fs path with ⟨y, ms', hy, h', hl⟩ | ⟨h', -⟩
  · rw [hf] at hy
    cases hy
    rw [h] at h'
    cases h'
    simp only [docEntries, List.forall₂_map_left_iff] at hl
    refine hl.imp ?_
    rintro ⟨name, n⟩ m ⟨n', hn, hm⟩
    simp only [Option.some.injEq] at hn
    subst hn
    unfold loadMeasurement at hm
    simp only [Res.bind_ok_iff] at hm
    obtain ⟨tj, ht, cj, hc, T, hT, hm⟩ := hm
    cases hm
    obtain ⟨el, pl, q, rfl, hpl, hpe⟩ := loadMeasuredPose_inv hT
    have joints : ∀ {k : String} {xs : List ℝ}, loadJoints (.map el) k = .ok xs →
        ∀ ns, el.lookup k = some (.seq ns) → List.Forall₂ IsNum ns xs := by
      intro k xs hj ns hns
      unfold loadJoints at hj
      simp only [Yaml.keyN, hns, Option.getD_some, Res.ok_bind, Yaml.size, Yaml.idx, Res.mapList_ok_iff] at hj
      have hlen := hj.length_eq
      rw [List.length_range] at hlen
      rw [List.forall₂_iff_get]
      refine ⟨hlen, fun i hi hi' => ?_⟩
      have := (List.forall₂_iff_get.1 hj).2 i (by simpa using hi) hi'
      simp only [List.get_eq_getElem, List.getElem_range, List.getElem?_eq_getElem hi, Yaml.asNode] at this
      exact isNum_iff.1 this
    exact ⟨el, pl, q, rfl, hpl, hpe, joints ht, joints hc⟩
  · rw [h] at h'; cases h'

/-- A missing number of a pose leads to the rejection of the document. -/
theorem C137_pose {Img : Type} (fs : FS Img) (path : String) (l : List (String × Yaml))
    (hf : fs.files path = some (.yaml (.map l))) (name : String) (el pl : List (String × Yaml))
    (he : (name, Yaml.map el) ∈ l) (hp : el.lookup "pose" = some (.map pl)) (k : String) (hk : k ∈ poseKeys)
    (hm : pl.lookup k = none) : loadMeasurements fs path = .throw .badFile := by
  rcases C136_failure fs path with ⟨ms, h⟩ | h
  · exfalso
    have := C137_partial fs path l ms hf h
    obtain ⟨i, hi, hget⟩ := List.getElem_of_mem he
    obtain ⟨el', pl', q, h1, h2, h3, -⟩ := (List.forall₂_iff_get.1 this).2 i hi (by have := this.length_eq; omega)
    simp only [List.get_eq_getElem, hget, Yaml.map.injEq] at h1
    subst h1
    rw [hp] at h2
    cases h2
    obtain ⟨⟨_, k1, _⟩, ⟨_, k2, _⟩, ⟨_, k3, _⟩, ⟨_, k4, _⟩, ⟨_, k5, _⟩, ⟨_, k6, _⟩, ⟨_, k7, _⟩, _⟩ := h3
    unfold poseKeys at hk
    simp only [List.mem_cons, List.not_mem_nil, or_false] at hk
    rcases hk with rfl | rfl | rfl | rfl | rfl | rfl | rfl
    · rw [hm] at k1; cases k1
    · rw [hm] at k2; cases k2
    · rw [hm] at k3; cases k3
    · rw [hm] at k4; cases k4
    · rw [hm] at k5; cases k5
    · rw [hm] at k6; cases k6
    · rw [hm] at k7; cases k7
  · exact h

/-- An entry with a complete pose and no joints at all is accepted as a measurement without joint values. -/
theorem C137_negation {Img : Type} (fs : FS Img) (path : String) (name : String) (el pl : List (String × Yaml)) (T : Iso)
    (q : Quat) (hf : fs.files path = some (.yaml (.map [(name, .map el)]))) (h1 : el.lookup "target_joints" = none)
    (h2 : el.lookup "camera_joints" = none) (hp : el.lookup "pose" = some (.map pl)) (hq : PoseEntry pl T q) :
    loadMeasurements fs path = .ok [⟨T, [], []⟩] := by
  have hm : loadMeasurement (.map el) = .ok ⟨T, [], []⟩ := by
    unfold loadMeasurement
    rw [loadMeasuredPose_ok hp hq]
    simp [loadJoints, Yaml.keyN, h1, h2, Yaml.size, Res.mapList]
  unfold loadMeasurements loadYaml
  simp [hf, docEntries, Res.mapList, loadDocEntry, hm]

/-- A document that consists of a single word is accepted as an empty set of measurements. -/
theorem C137_document_negation {Img : Type} (fs : FS Img) (path : String) (s : YScalar)
    (hf : fs.files path = some (.yaml (.scalar s))) : loadMeasurements fs path = .ok [] := by
  unfold loadMeasurements loadYaml
  simp [hf, docEntries, Res.mapList]

/-- A list of measurements without names is rejected. -/
theorem C137_sequence {Img : Type} (fs : FS Img) (path : String) (n : Yaml) (ns : List Yaml)
    (hf : fs.files path = some (.yaml (.seq (n :: ns)))) : loadMeasurements fs path = .throw .badFile := by
  unfold loadMeasurements loadYaml
  simp only [hf, Res.ok_bind, docEntries, List.map_cons]
  rfl

/- C138, full statement: every measured pose is a rigid motion. Quaternions are not normalised: `C138_negation`. -/
/-- The poses with quaternions of unit length, and those without vector part, are rigid motions, and no others. -/
theorem C138_partial {Img : Type} (fs : FS Img) (path : String) (l : List (String × Yaml)) (ms : List KinMeas)
    (hf : fs.files path = some (.yaml (.map l))) (h : loadMeasurements fs path = .ok ms) :
    List.Forall₂ (fun e m => ∃ el pl q, e.2 = .map el ∧ el.lookup "pose" = some (.map pl) ∧ PoseEntry pl m.cameraToTarget q ∧
      (RigidMotion m.cameraToTarget ↔ q.normSq = 1 ∨ q.vec = ⟨0, 0, 0⟩)) l ms := by
  refine (C137_partial fs path l ms hf h).imp ?_
  rintro e m ⟨el, pl, q, h1, h2, h3, -⟩
  refine ⟨el, pl, q, h1, h2, h3, ?_⟩
  have hR := turns_unique h3.2.2.2.2.2.2.2
  rw [← rigid_iff]
  show m.cameraToTarget.R.IsRot ↔ _
  rw [hR, toMat_isRot_iff, or_comm]
  rfl

/-- A complete entry with a quaternion of another length and with a vector part is accepted and gives a transform that is
not rigid. -/
theorem C138_negation {Img : Type} (fs : FS Img) (path : String) (name : String) (n : Yaml) (el pl : List (String × Yaml))
    (m : KinMeas) (q : Quat) (hf : fs.files path = some (.yaml (.map [(name, n)]))) (hn : n = .map el)
    (h1 : NumList el "target_joints" m.targetJoints) (h2 : NumList el "camera_joints" m.cameraJoints)
    (h3 : el.lookup "pose" = some (.map pl)) (h4 : PoseEntry pl m.cameraToTarget q)
    (hq : q.normSq ≠ 1) (hv : q.vec ≠ ⟨0, 0, 0⟩) :
    loadMeasurements fs path = .ok [m] ∧ ¬ RigidMotion m.cameraToTarget := by
  refine ⟨C136_exact fs path _ _ hf (.cons ⟨el, pl, q, hn, h1, h2, h3, h4⟩ .nil), ?_⟩
  rw [← rigid_iff]
  show ¬ m.cameraToTarget.R.IsRot
  rw [turns_unique h4.2.2.2.2.2.2.2, toMat_isRot_iff]
  rintro (h | h)
  · exact hv h
  · exact hq h

/-! ### Example -/

noncomputable def exMeasPose (x y z qw qx qy qz : ℝ) : List (String × Yaml) :=
  [("x", exRealScalar x), ("y", exRealScalar y), ("z", exRealScalar z), ("qw", exRealScalar qw), ("qx", exRealScalar qx),
   ("qy", exRealScalar qy), ("qz", exRealScalar qz)]

noncomputable def exMeasEntry (x y z qw qx qy qz a b : ℝ) : List (String × Yaml) :=
  [("camera_joints", .seq []), ("target_joints", .seq [exRealScalar a, exRealScalar b]),
   ("pose", .map (exMeasPose x y z qw qx qy qz))]

noncomputable def exMeas (x y z qw qx qy qz a b : ℝ) : KinMeas :=
  ⟨⟨Quat.toMat ⟨qw, qx, qy, qz⟩, ⟨x, y, z⟩⟩, [], [a, b]⟩

theorem exMeasPose_ok (x y z qw qx qy qz : ℝ) :
    PoseEntry (exMeasPose x y z qw qx qy qz) ⟨Quat.toMat ⟨qw, qx, qy, qz⟩, ⟨x, y, z⟩⟩ ⟨qw, qx, qy, qz⟩ := by
  refine ⟨?_, ?_, ?_, ?_, ?_, ?_, ?_, toMat_turns _⟩ <;> exact ⟨_, rfl, _, rfl, rfl⟩

theorem exMeasEntry_ok (x y z qw qx qy qz a b : ℝ) :
    MeasEntry (.map (exMeasEntry x y z qw qx qy qz a b)) (exMeas x y z qw qx qy qz a b) :=
  ⟨_, _, _, rfl, ⟨_, rfl, .cons ⟨_, rfl, rfl⟩ (.cons ⟨_, rfl, rfl⟩ .nil)⟩, ⟨_, rfl, .nil⟩, rfl,
    exMeasPose_ok x y z qw qx qy qz⟩

/-- Two entries, the second with a half turn about the x axis. -/
example {Img : Type} (fs : FS Img) (hf : fs.files "m.yaml" =
    some (.yaml (.map [("a", .map (exMeasEntry 1 2 3 1 0 0 0 4 5)), ("b", .map (exMeasEntry 1 1 1 0 1 0 0 6 7))]))) :
    loadMeasurements fs "m.yaml" = .ok [exMeas 1 2 3 1 0 0 0 4 5, exMeas 1 1 1 0 1 0 0 6 7] :=
  C136_exact fs "m.yaml" _ _ hf (.cons (exMeasEntry_ok ..) (.cons (exMeasEntry_ok ..) .nil))

/-- The quaternion (1, 1, 0, 0). -/
example {Img : Type} (fs : FS Img) (hf : fs.files "m.yaml" = some (.yaml (.map [("a", .map (exMeasEntry 1 2 3 1 1 0 0 4 5))]))) :
    ∃ m, loadMeasurements fs "m.yaml" = .ok [m] ∧ ¬ RigidMotion m.cameraToTarget := by
  obtain ⟨_, _, _, _, h1, h2, h3, h4⟩ := exMeasEntry_ok 1 2 3 1 1 0 0 4 5
  exact ⟨_, C138_negation fs "m.yaml" "a" _ (exMeasEntry 1 2 3 1 1 0 0 4 5) (exMeasPose 1 2 3 1 1 0 0)
    (exMeas 1 2 3 1 1 0 0 4 5) ⟨1, 1, 0, 0⟩ hf rfl ⟨_, rfl, .cons ⟨_, rfl, rfl⟩ (.cons ⟨_, rfl, rfl⟩ .nil)⟩ ⟨_, rfl, .nil⟩ rfl
    (exMeasPose_ok ..) (by norm_num [Quat.normSq]) (by simp [Quat.vec])⟩

/-! ## Comparison with measurements -/

theorem rel_norm {A B : Iso} (hA : A.IsRigid) : (A.inv * B).t.norm = originDist A B := by
  have : (A.inv * B).t = A.R.tr.mulVec (B.t - A.t) := by
    rw [M3.mulVec_sub]
    ext <;> simp [Iso.inv] <;> ring
  rw [this, (M3.IsRot.tr hA).norm]
  rfl

theorem rel_angle {A B : Iso} (hA : A.IsRigid) (hB : B.IsRigid) :
    A.R.toQuat.angularDistance B.R.toQuat = frameAngle A B := by
  rw [angularDistance_eq hA hB]
  unfold frameAngle rotAngle
  congr 1
  simp only [M3.mul_def, M3.tr]
  ring

theorem frameAngle_nonneg (A B : Iso) : 0 ≤ frameAngle A B := Real.arccos_nonneg _

theorem originDist_nonneg (A B : Iso) : 0 ≤ originDist A B := Real.sqrt_nonneg _

theorem frameAngle_eq_zero {A B : Iso} (hA : A.IsRigid) (hB : B.IsRigid) : frameAngle A B = 0 ↔ A.R = B.R := by
  rw [← rel_angle hA hB, angularDistance_eq hA hB, rotAngle_eq_zero_iff hA hB]

theorem originDist_eq_zero {A B : Iso} : originDist A B = 0 ↔ A.t = B.t := by
  unfold originDist
  rw [V3.norm_eq_zero]
  constructor
  · intro h; exact (V3.sub_eq_zero.1 h).symm
  · intro h; exact V3.sub_eq_zero.2 h.symm

/-- The mean of values that are not negative is zero only if all of them are. -/
theorem meanStdev_zero {l : List ℝ} {m d : ℝ} (h : MeanStdev l m d) (hl : ∀ x ∈ l, 0 ≤ x) (hne : l ≠ []) :
    m = 0 ↔ ∀ x ∈ l, x = 0 := by
  have hn : (l.length : ℝ) ≠ 0 := by
    have := List.length_pos_of_ne_nil hne
    positivity
  have hm : m = 0 ↔ l.sum = 0 := by
    rw [← h.1]
    constructor
    · rintro rfl; simp
    · intro h0; exact (mul_eq_zero.1 h0).resolve_right hn
  rw [hm]
  clear hm hn h hne m d
  induction l with
  | nil => simp
  | cons a l ih =>
    have ha := hl a (by simp)
    have hs : 0 ≤ l.sum := List.sum_nonneg fun x hx => hl x (by simp [hx])
    have := ih fun x hx => hl x (by simp [hx])
    simp only [List.sum_cons, List.mem_cons, forall_eq_or_imp]
    constructor
    · intro h
      have h2 : l.sum = 0 := by linarith
      exact ⟨by linarith, this.1 h2⟩
    · rintro ⟨h1, h2⟩; rw [h1, this.2 h2, add_zero]

/-- Joint values and calibration that the comparison accepts: not more joint values than joints, rigid data. -/
structure Comparable (cc tc : DHChain) (r : KinResult) (ms : List KinMeas) : Prop where
  cb : RigidMotion cc.base
  tb : RigidMotion tc.base
  cm : RigidMotion r.cmToC
  tm : RigidMotion r.tmToT
  bb : RigidMotion r.cbToTb
  co : cc.transforms.length ≤ r.cameraOffsets.length
  tgo : tc.transforms.length ≤ r.targetOffsets.length
  meas : ∀ m ∈ ms, m.cameraJoints.length ≤ cc.transforms.length ∧ m.targetJoints.length ≤ tc.transforms.length ∧
    RigidMotion m.cameraToTarget

theorem targetInCamera_rigid {cc tc : DHChain} {r : KinResult} {ms : List KinMeas} (h : Comparable cc tc r ms)
    (qc qt : List ℝ) : (targetInCamera cc tc r qc qt).IsRigid := by
  unfold targetInCamera
  exact (((endPose_rigid ((rigid_iff _).2 h.cb) _ _).mul ((rigid_iff _).2 h.cm)).inv).mul
    ((((rigid_iff _).2 h.bb).mul (endPose_rigid ((rigid_iff _).2 h.tb) _ _)).mul ((rigid_iff _).2 h.tm))

theorem compare_eq {cc tc : DHChain} {r : KinResult} {ms : List KinMeas} (h : Comparable cc tc r ms) (rd rd' : Nat → Nat) :
    let ps := ms.map fun m => originDist (targetInCamera cc tc r m.cameraJoints m.targetJoints) m.cameraToTarget
    let as := ms.map fun m => frameAngle (targetInCamera cc tc r m.cameraJoints m.targetJoints) m.cameraToTarget
    compareToMeasurements cc tc r ms rd rd' =
      .ok ⟨accMean ps, (accVar ps).map Real.sqrt, accMean as, (accVar as).map Real.sqrt⟩ := by
  intro ps as
  obtain ⟨cc', h1, k1⟩ := C11_bake_offsets cc r.cameraOffsets rd h.co
  obtain ⟨tc', h2, k2⟩ := C11_bake_offsets tc r.targetOffsets rd' h.tgo
  unfold compareToMeasurements
  rw [h1, h2, Res.ok_bind, Res.ok_bind]
  rw [Res.mapList_ok_of_forall (g := fun m : KinMeas =>
    (originDist (targetInCamera cc tc r m.cameraJoints m.targetJoints) m.cameraToTarget,
     frameAngle (targetInCamera cc tc r m.cameraJoints m.targetJoints) m.cameraToTarget))]
  · simp only [Res.ok_bind, List.map_map]
    rfl
  · intro m hm
    obtain ⟨l1, l2, l3⟩ := h.meas m hm
    have e1 : cc'.getFK0 m.cameraJoints = .ok (endPose cc r.cameraOffsets m.cameraJoints) := by
      rw [k1, getFK_eq, if_pos ⟨l1, l1.trans h.co⟩]; rfl
    have e2 : tc'.getFK0 m.targetJoints = .ok (endPose tc r.targetOffsets m.targetJoints) := by
      rw [k2, getFK_eq, if_pos ⟨l2, l2.trans h.tgo⟩]; rfl
    have hT := targetInCamera_rigid h m.cameraJoints m.targetJoints
    unfold compareOne
    rw [e1, e2, Res.ok_bind, Res.ok_bind, ← rel_norm hT, ← rel_angle hT ((rigid_iff _).2 l3)]
    rfl

/-- C139: the statistics are mean and standard deviation of the distances and of the angles between the measured poses and
the poses that close the loop with the calibration result. -/
theorem C139_stats {cc tc : DHChain} {r : KinResult} {ms : List KinMeas} (h : Comparable cc tc r ms) (hne : ms ≠ [])
    (rd rd' : Nat → Nat) :
    ∃ preds pm pd am ad, List.Forall₂ (fun m X => RigidMotion X ∧
        LoopCloses (endPose cc r.cameraOffsets m.cameraJoints) r.cmToC X r.cbToTb
          (endPose tc r.targetOffsets m.targetJoints) r.tmToT) ms preds ∧
      compareToMeasurements cc tc r ms rd rd' = .ok ⟨some pm, some pd, some am, some ad⟩ ∧
      MeanStdev (List.zipWith originDist preds (ms.map (·.cameraToTarget))) pm pd ∧
      MeanStdev (List.zipWith frameAngle preds (ms.map (·.cameraToTarget))) am ad := by
  have hz : ∀ f : Iso → Iso → ℝ, List.zipWith f (ms.map fun m => targetInCamera cc tc r m.cameraJoints m.targetJoints)
      (ms.map (·.cameraToTarget)) =
      ms.map fun m => f (targetInCamera cc tc r m.cameraJoints m.targetJoints) m.cameraToTarget := by
    intro f
    rw [List.zipWith_map, List.zipWith_self]
  obtain ⟨pm, pd, e1, e2, hp⟩ := (accMean_iff (l := ms.map fun m =>
    originDist (targetInCamera cc tc r m.cameraJoints m.targetJoints) m.cameraToTarget) (by simpa using hne) _ _).2 ⟨rfl, rfl⟩
  obtain ⟨am, ad, e3, e4, ha⟩ := (accMean_iff (l := ms.map fun m =>
    frameAngle (targetInCamera cc tc r m.cameraJoints m.targetJoints) m.cameraToTarget) (by simpa using hne) _ _).2 ⟨rfl, rfl⟩
  refine ⟨ms.map fun m => targetInCamera cc tc r m.cameraJoints m.targetJoints, pm, pd, am, ad, ?_, ?_, ?_, ?_⟩
  · rw [List.forall₂_map_right_iff, List.forall₂_same]
    intro m _
    exact ⟨(rigid_iff _).1 (targetInCamera_rigid h _ _), (targetInCamera_closes h.cb h.cm _ _ _).1 rfl⟩
  · rw [compare_eq h, e1, e2, e3, e4]
  · rwa [hz]
  · rwa [hz]

/-- Both means are zero exactly if every measured pose closes the loop. -/
theorem C139_zero {cc tc : DHChain} {r : KinResult} {ms : List KinMeas} (h : Comparable cc tc r ms) (hne : ms ≠ [])
    (rd rd' : Nat → Nat) (st : KinStats) (hs : compareToMeasurements cc tc r ms rd rd' = .ok st) :
    (st.posMean = some 0 ∧ st.rotMean = some 0) ↔
      ∀ m ∈ ms, LoopCloses (endPose cc r.cameraOffsets m.cameraJoints) r.cmToC m.cameraToTarget r.cbToTb
        (endPose tc r.targetOffsets m.targetJoints) r.tmToT := by
  obtain ⟨pm, pd, e1, e2, hp⟩ := (accMean_iff (l := ms.map fun m =>
    originDist (targetInCamera cc tc r m.cameraJoints m.targetJoints) m.cameraToTarget) (by simpa using hne) _ _).2 ⟨rfl, rfl⟩
  obtain ⟨am, ad, e3, e4, ha⟩ := (accMean_iff (l := ms.map fun m =>
    frameAngle (targetInCamera cc tc r m.cameraJoints m.targetJoints) m.cameraToTarget) (by simpa using hne) _ _).2 ⟨rfl, rfl⟩
  rw [compare_eq h, e1, e3] at hs
  cases hs
  simp only [Option.some.injEq]
  rw [meanStdev_zero hp (by simp only [List.mem_map]; rintro x ⟨m, -, rfl⟩; exact originDist_nonneg _ _) (by simpa using hne),
    meanStdev_zero ha (by simp only [List.mem_map]; rintro x ⟨m, -, rfl⟩; exact frameAngle_nonneg _ _) (by simpa using hne)]
  simp only [List.mem_map, forall_exists_index, and_imp, forall_apply_eq_imp_iff₂]
  constructor
  · rintro ⟨h1, h2⟩ m hm
    rw [← targetInCamera_closes h.cb h.cm]
    have hT := targetInCamera_rigid h m.cameraJoints m.targetJoints
    exact Iso.ext ((frameAngle_eq_zero hT ((rigid_iff _).2 (h.meas m hm).2.2)).1 (h2 m hm)).symm
      (originDist_eq_zero.1 (h1 m hm)).symm
  · intro hl
    refine ⟨fun m hm => ?_, fun m hm => ?_⟩
    · have := (targetInCamera_closes h.cb h.cm _ _ _).2 (hl m hm)
      rw [← this]
      exact originDist_eq_zero.2 rfl
    · have hT := targetInCamera_rigid h m.cameraJoints m.targetJoints
      have := (targetInCamera_closes h.cb h.cm _ _ _).2 (hl m hm)
      rw [frameAngle_eq_zero hT ((rigid_iff _).2 (h.meas m hm).2.2), ← this]

/-- More joint values than joints, in either chain and in any measurement, are reported as an error. -/
theorem C139_joints {cc tc : DHChain} {r : KinResult} (ms : List KinMeas)
    (h1 : cc.transforms.length ≤ r.cameraOffsets.length) (h2 : tc.transforms.length ≤ r.targetOffsets.length) (m : KinMeas)
    (hm : m ∈ ms) (h : cc.transforms.length < m.cameraJoints.length ∨ tc.transforms.length < m.targetJoints.length)
    (rd rd' : Nat → Nat) : compareToMeasurements cc tc r ms rd rd' = .throw .runtimeError := by
  obtain ⟨cc', e1, k1⟩ := C11_bake_offsets cc r.cameraOffsets rd h1
  obtain ⟨tc', e2, k2⟩ := C11_bake_offsets tc r.targetOffsets rd' h2
  unfold compareToMeasurements
  rw [e1, e2, Res.ok_bind, Res.ok_bind]
  have hone : ∀ m : KinMeas, (cc.transforms.length < m.cameraJoints.length ∨ tc.transforms.length < m.targetJoints.length →
        compareOne cc' tc' r m = .throw .runtimeError) ∧
      ((∃ x, compareOne cc' tc' r m = .ok x) ∨ compareOne cc' tc' r m = .throw .runtimeError) := by
    intro m
    simp only [compareOne, k1, k2, getFK_eq]
    by_cases a : m.cameraJoints.length ≤ cc.transforms.length
    · by_cases b : m.targetJoints.length ≤ tc.transforms.length
      · rw [if_pos ⟨a, a.trans h1⟩, if_pos ⟨b, b.trans h2⟩, Res.ok_bind, Res.ok_bind]
        exact ⟨fun h => by omega, .inl ⟨_, rfl⟩⟩
      · rw [if_pos ⟨a, a.trans h1⟩, if_neg fun h => b h.1, Res.ok_bind]
        exact ⟨fun _ => rfl, .inr rfl⟩
    · rw [if_neg fun h => a h.1]
      exact ⟨fun _ => rfl, .inr rfl⟩
  have : Res.mapList (compareOne cc' tc' r) ms = .throw .runtimeError := by
    induction ms with
    | nil => cases hm
    | cons x l ih =>
      rcases List.mem_cons.1 hm with rfl | hm
      · rw [Res.mapList, (hone _).1 h]; rfl
      · rw [Res.mapList]
        rcases (hone x).2 with ⟨y, hy⟩ | hy
        · rw [hy, Res.ok_bind, ih hm]; rfl
        · rw [hy]; rfl
  rw [this]
  rfl

/-- A chain without joints for the camera, a measured pose that differs from the prediction. -/
example : ∃ cc tc r, ∃ ms : List KinMeas, Comparable cc tc r ms ∧ ms ≠ [] ∧ ∃ m ∈ ms,
    ¬ LoopCloses (endPose cc r.cameraOffsets m.cameraJoints) r.cmToC m.cameraToTarget r.cbToTb
        (endPose tc r.targetOffsets m.targetJoints) r.tmToT := by
  have h1 : RigidMotion (1 : Iso) := Representable.one.1
  have h2 : RigidMotion (⟨1, ⟨1, 2, 3⟩⟩ : Iso) := (rigid_iff _).1 (M3.IsRot.one)
  refine ⟨⟨[], 1⟩, ⟨[], 1⟩, ⟨true, none, none, 1, 1, 1, [], [], ⟨[], [], [], ⟨0, 0, fun _ _ => 0⟩, ⟨0, 0, fun _ _ => 0⟩⟩, []⟩,
    [⟨⟨1, ⟨1, 2, 3⟩⟩, [], []⟩],
    ⟨h1, h1, h1, h1, h1, by simp, by simp, ?_⟩, by simp, _, List.mem_singleton.2 rfl, ?_⟩
  · intro m hm
    rw [List.mem_singleton] at hm
    subst hm
    exact ⟨by simp, by simp, h2⟩
  · intro h
    have := congrArg (fun T : Iso => T.t.x) h
    simp [endPose, chainPose] at this

/-- C140: there is a figure exactly if the reference is not zero; it is positive exactly if the other value is smaller,
and hundred exactly if the other value is zero. -/
theorem C140_percent (self other : ℝ) (h : 0 ≤ self) :
    (percentDiff self other = none ↔ self = 0) ∧
    ∀ p, percentDiff self other = some p →
      (0 < p ↔ other < self) ∧ (p = 0 ↔ other = self) ∧ (p = 100 ↔ other = 0) ∧ other = self * (1 - p / 100) := by
  unfold percentDiff
  refine ⟨by split <;> simp_all, fun p hp => ?_⟩
  split at hp
  · cases hp
  · rename_i h0
    cases hp
    have hs : 0 < self := lt_of_le_of_ne h (Ne.symm h0)
    refine ⟨?_, ?_, ?_, ?_⟩
    · rw [div_pos_iff_of_pos_right hs]
      constructor <;> intro _ <;> linarith
    · rw [div_eq_zero_iff, or_iff_left h0]
      constructor
      · intro _; linarith
      · rintro rfl; ring
    · rw [div_eq_iff h0]
      constructor <;> intro _ <;> linarith
    · field_simp
      ring

example : ∃ p, percentDiff 4 1 = some p ∧ 0 < p := ⟨75, by norm_num [percentDiff], by norm_num⟩

/-! ## Analysis of the hand eye calibration -/

/-- The pose of the target in the camera that the calibration predicts for an observation. -/
noncomputable def calibratedPose (cam tgt : Iso) (o : Obs Corr2) : Iso :=
  cam.inv * o.toCameraMount.inv * o.toTargetMount * tgt

/-- It is the pose that closes the loop over camera mount and target mount. -/
theorem calibratedPose_iff {cam : Iso} (tgt : Iso) {o : Obs Corr2} (h1 : RigidMotion cam) (h2 : RigidMotion o.toCameraMount)
    (X : Iso) : X = calibratedPose cam tgt o ↔ o.toCameraMount * cam * X = o.toTargetMount * tgt := by
  have hA := ((rigid_iff _).2 h2).mul ((rigid_iff _).2 h1)
  have hi : (o.toCameraMount * cam).inv = cam.inv * o.toCameraMount.inv := by
    apply Iso.ext_apply
    intro p
    have h := Iso.apply_inv_apply hA p
    have e : (cam.inv * o.toCameraMount.inv).apply p =
        (o.toCameraMount * cam).inv.apply ((o.toCameraMount * cam).apply ((cam.inv * o.toCameraMount.inv).apply p)) := by
      rw [Iso.inv_apply_apply hA]
    rw [e]
    congr 1
    rw [Iso.apply_mul, Iso.apply_mul, Iso.apply_inv_apply ((rigid_iff _).2 h1), Iso.apply_inv_apply ((rigid_iff _).2 h2)]
  unfold calibratedPose
  rw [← hi, Iso.mul_assoc _ o.toTargetMount]
  constructor
  · rintro rfl
    apply Iso.ext_apply
    intro p
    rw [Iso.apply_mul, Iso.apply_mul (o.toCameraMount * cam).inv, Iso.apply_inv_apply hA]
  · intro h
    apply Iso.ext_apply
    intro p
    rw [← h, Iso.apply_mul, Iso.apply_mul, Iso.inv_apply_apply hA]

theorem calibratedPose_rigid {cam tgt : Iso} {o : Obs Corr2} (h1 : RigidMotion cam) (h2 : RigidMotion tgt)
    (h3 : RigidMotion o.toCameraMount) (h4 : RigidMotion o.toTargetMount) : (calibratedPose cam tgt o).IsRigid :=
  ((((rigid_iff _).2 h1).inv.mul ((rigid_iff _).2 h3).inv).mul ((rigid_iff _).2 h4)).mul ((rigid_iff _).2 h2)

/-- The PnP problem of one observation, started at the calibrated pose. -/
noncomputable def analysisPnp (intr : Intr) (cam tgt : Iso) (o : Obs Corr2) : PnPProblem Corr2 :=
  { intr := intr, correspondences := o.corrs, guess := calibratedPose cam tgt o }

theorem analyzeOne_ok_iff {Img : Type} (s : Ceres V3) (intr : Intr) (obs : List (Obs Corr2)) (images : List Img) (cam tgt : Iso)
    (h1 : RigidMotion cam) (h2 : RigidMotion tgt)
    (h3 : ∀ o ∈ obs, RigidMotion o.toCameraMount ∧ RigidMotion o.toTargetMount) (i : Nat) (hi : i < images.length) (d : ℝ × ℝ) :
    analyzeOne s intr obs images cam tgt i = .ok d ↔ ∃ o r, obs[i]? = some o ∧ pnp2 s (analysisPnp intr cam tgt o) = .ok r ∧
      d = (originDist (calibratedPose cam tgt o) r.cameraToTarget, frameAngle (calibratedPose cam tgt o) r.cameraToTarget) := by
  unfold analyzeOne
  simp only [Res.bind_ok_iff, atList_ok_iff, Res.idxList_ok_iff, List.getElem?_eq_getElem hi, Res.ok.injEq,
    Option.some.injEq, exists_eq_left']
  constructor
  · rintro ⟨o, ho, r, hr, rfl⟩
    refine ⟨o, r, ho, hr, ?_⟩
    have hm := h3 o (List.mem_of_getElem? ho)
    have hT := calibratedPose_rigid h1 h2 hm.1 hm.2
    rw [← rel_norm hT, ← rel_angle hT ((rigid_iff _).2 (C35_rigid s _ _ hr))]
    rfl
  · rintro ⟨o, r, ho, hr, rfl⟩
    refine ⟨o, ho, r, hr, ?_⟩
    have hm := h3 o (List.mem_of_getElem? ho)
    have hT := calibratedPose_rigid h1 h2 hm.1 hm.2
    rw [← rel_norm hT, ← rel_angle hT ((rigid_iff _).2 (C35_rigid s _ _ hr))]
    rfl

/- C141, full statement: the analysis reports mean and standard deviation of the distances (in metres) and of the angles (in
degrees) between the calibrated poses and the PnP estimates of the images, of which every estimate comes from a converged
optimization. Convergence is not looked at: `C141_negation`. -/
/-- The statistics are those of the PnP estimates of the observations of the images, in order; without a PnP estimate there
are no statistics. -/
theorem C141_partial {Img : Type} (s : Ceres V3) (intr : Intr) (obs : List (Obs Corr2)) (images : List Img) (cam tgt : Iso)
    (h1 : RigidMotion cam) (h2 : RigidMotion tgt)
    (h3 : ∀ o ∈ obs, RigidMotion o.toCameraMount ∧ RigidMotion o.toTargetMount) (hne : images ≠ [])
    (hlen : images.length ≤ obs.length) (st : HandEyeStats) :
    analyzeResults s intr obs images cam tgt = .ok st ↔
      ∃ fits : List PnPResult, List.Forall₂ (fun o r => pnp2 s (analysisPnp intr cam tgt o) = .ok r) (obs.take images.length) fits ∧
        (∃ m d, st.posMean = some m ∧ st.posStdev = some d ∧ MeanStdev (List.zipWith (fun o (r : PnPResult) =>
          originDist (calibratedPose cam tgt o) r.cameraToTarget) (obs.take images.length) fits) m d) ∧
        ∃ m d, st.oriMean = some (m * (180 / Real.pi)) ∧ st.oriStdev = some (d * (180 / Real.pi)) ∧
          MeanStdev (List.zipWith (fun o (r : PnPResult) =>
            frameAngle (calibratedPose cam tgt o) r.cameraToTarget) (obs.take images.length) fits) m d := by
  have hl : 0 < images.length := List.length_pos_iff.2 hne
  have key : ∀ ds, Res.mapList (analyzeOne s intr obs images cam tgt) (List.range images.length) = .ok ds ↔
      ∃ fits : List PnPResult, List.Forall₂ (fun o r => pnp2 s (analysisPnp intr cam tgt o) = .ok r) (obs.take images.length) fits ∧
        ds = List.zipWith (fun o (r : PnPResult) => (originDist (calibratedPose cam tgt o) r.cameraToTarget,
          frameAngle (calibratedPose cam tgt o) r.cameraToTarget)) (obs.take images.length) fits := by
    intro ds
    rw [Res.mapList_ok_iff, List.forall₂_iff_get]
    constructor
    · rintro ⟨hlen', h⟩
      rw [List.length_range] at hlen'
      have hsel : ∀ i : Fin images.length, ∃ r, pnp2 s (analysisPnp intr cam tgt (obs[i.1]'(by omega))) = .ok r ∧
          ds[i.1]'(by omega) = (originDist (calibratedPose cam tgt (obs[i.1]'(by omega))) r.cameraToTarget,
            frameAngle (calibratedPose cam tgt (obs[i.1]'(by omega))) r.cameraToTarget) := by
        intro i
        have := h i.1 (by simp) (by omega)
        simp only [List.get_eq_getElem, List.getElem_range] at this
        rw [analyzeOne_ok_iff s intr obs images cam tgt h1 h2 h3 i.1 i.2] at this
        obtain ⟨o, r, ho, hr, hd⟩ := this
        rw [List.getElem?_eq_getElem (by omega)] at ho
        cases ho
        exact ⟨r, hr, hd⟩
      choose f hf hd using hsel
      refine ⟨List.ofFn f, ?_, ?_⟩
      · rw [List.forall₂_iff_get]
        refine ⟨by simp [hlen], fun i hi hi' => ?_⟩
        have hi0 : i < images.length := by simpa using hi'
        simpa using hf ⟨i, hi0⟩
      · apply List.ext_getElem
        · simp [hlen, ← hlen']
        · intro i hi hi'
          have hi0 : i < images.length := by omega
          simpa using hd ⟨i, hi0⟩
    · rintro ⟨fits, hf, rfl⟩
      have hfl := hf.length_eq
      rw [List.length_take, Nat.min_eq_left hlen] at hfl
      refine ⟨by simp [hlen, ← hfl], fun i hi hi' => ?_⟩
      have hi0 : i < images.length := by simpa using hi
      simp only [List.get_eq_getElem, List.getElem_range]
      rw [analyzeOne_ok_iff s intr obs images cam tgt h1 h2 h3 i hi0]
      refine ⟨obs[i]'(by omega), fits[i]'(by omega), List.getElem?_eq_getElem _, ?_, ?_⟩
      · simpa using (List.forall₂_iff_get.1 hf).2 i (by simp; omega) (by omega)
      · simp
  have nonempty : ∀ {fits : List PnPResult} (g : Obs Corr2 → PnPResult → ℝ),
      List.Forall₂ (fun o r => pnp2 s (analysisPnp intr cam tgt o) = .ok r) (obs.take images.length) fits →
      List.zipWith g (obs.take images.length) fits ≠ [] := by
    intro fits g hf
    have hfl := hf.length_eq
    rw [List.length_take, Nat.min_eq_left hlen] at hfl
    rw [← List.length_pos_iff]
    simp only [List.length_zipWith, List.length_take, Nat.min_eq_left hlen, ← hfl, Nat.min_self]
    exact hl
  have deg : ∀ x, toDegrees x = x * (180 / Real.pi) := fun x => by unfold toDegrees; ring
  have hpi : 180 / Real.pi ≠ 0 := by positivity
  unfold analyzeResults
  rw [Res.bind_ok_iff]
  simp only [key]
  constructor
  · rintro ⟨ds, ⟨fits, hf, rfl⟩, h⟩
    cases h
    refine ⟨fits, hf, ?_, ?_⟩
    · simp only [List.map_zipWith]
      exact (accMean_iff (nonempty _ hf) _ _).2 ⟨rfl, rfl⟩
    · simp only [List.map_zipWith]
      obtain ⟨m, d, e1, e2, h⟩ := (accMean_iff (nonempty (fun o (r : PnPResult) =>
        frameAngle (calibratedPose cam tgt o) r.cameraToTarget) hf) _ _).2 ⟨rfl, rfl⟩
      exact ⟨m, d, by rw [e1, Option.map_some, deg], by rw [e2, Option.map_some, deg], h⟩
  · rintro ⟨fits, hf, hp, m, d, e1, e2, ha⟩
    refine ⟨_, ⟨fits, hf, rfl⟩, ?_⟩
    obtain ⟨k1, k2⟩ := (accMean_iff (nonempty _ hf) _ _).1 hp
    obtain ⟨k3, k4⟩ := (accMean_iff (nonempty (fun o (r : PnPResult) =>
        frameAngle (calibratedPose cam tgt o) r.cameraToTarget) hf) (some m) (some d)).1 ⟨m, d, rfl, rfl, ha⟩
    simp only [List.map_zipWith]
    obtain ⟨a, b, c, e⟩ := st
    simp only at k1 k2 e1 e2
    rw [k1, k2, e1, e2, ← k3, ← k4]
    simp only [Option.map_some, deg]

/-- With more images than observations there is no report. -/
theorem C141_range {Img : Type} (s : Ceres V3) (intr : Intr) (obs : List (Obs Corr2)) (images : List Img) (cam tgt : Iso)
    (h : obs.length < images.length) : ∀ st, analyzeResults s intr obs images cam tgt ≠ .ok st := by
  intro st hs
  unfold analyzeResults at hs
  rw [Res.bind_ok_iff] at hs
  obtain ⟨ds, hds, -⟩ := hs
  rw [Res.mapList_ok_iff, List.forall₂_iff_get] at hds
  have := hds.2 obs.length (by simpa using h) (by rw [← hds.1]; simpa using h)
  simp only [List.get_eq_getElem, List.getElem_range] at this
  unfold analyzeOne at this
  rw [Res.bind_ok_iff] at this
  obtain ⟨o, ho, -⟩ := this
  rw [atList_ok_iff] at ho
  simp at ho

/-- The analysis reports the same numbers if no optimization converges. -/
theorem C141_negation {Img : Type} (s : Ceres V3) (intr : Intr) (obs : List (Obs Corr2)) (images : List Img) (cam tgt : Iso) :
    analyzeResults { s with converged := fun _ _ => false } intr obs images cam tgt = analyzeResults s intr obs images cam tgt := by
  have : ∀ i, analyzeOne { s with converged := fun _ _ => false } intr obs images cam tgt i =
      analyzeOne s intr obs images cam tgt i := by
    intro i
    unfold analyzeOne
    congr 1
    funext o
    simp only
    congr 1
    funext _
    unfold pnp2 pnpFinish
    simp only
    have hc : ∀ pb st, ({ s with converged := fun _ _ => false } : Ceres V3).covSolver pb st 3 = s.covSolver pb st 3 := by
      intros; rfl
    rw [hc]
    cases computeCovariance (s.covSolver (pnpBuild2 _) _ 3) _ _ _ <;> rfl
  unfold analyzeResults
  rw [show analyzeOne { s with converged := fun _ _ => false } intr obs images cam tgt =
    analyzeOne s intr obs images cam tgt from funext this]

/-- A data set with one image and a fit that ends where it starts. -/
example : ∃ (intr : Intr) (o : Obs Corr2) (st : HandEyeStats), RigidMotion o.toCameraMount ∧ RigidMotion o.toTargetMount ∧
    analyzeResults (idCeres V3) intr [o] [()] 1 1 = .ok st := by
  have h1 : RigidMotion (1 : Iso) := Representable.one.1
  obtain ⟨res, h⟩ : ∃ res, pnp2 (idCeres V3) (analysisPnp ⟨1, 1, 0, 0⟩ 1 1 ⟨[⟨⟨0, 0⟩, ⟨1, 0, 2⟩⟩], 1, 1⟩) = .ok res :=
    pnpFinish_returns _ _ [(⟨⟨0, 0⟩, ⟨1, 0, 2⟩⟩ : Corr2)] (by simp)
      (fun c => ⟨[pnpRot, pnpTrans], evalV2 (pnpCost2 ⟨1, 1, 0, 0⟩ c.inTarget c.inImage)⟩) (fun _ _ => rfl) rfl rfl
  have ho : analyzeOne (idCeres V3) ⟨1, 1, 0, 0⟩ [⟨[⟨⟨0, 0⟩, ⟨1, 0, 2⟩⟩], 1, 1⟩] [()] 1 1 0 = .ok _ :=
    (analyzeOne_ok_iff (idCeres V3) _ _ _ 1 1 h1 h1 (by simp [h1]) 0 (by simp) _).2 ⟨_, res, rfl, h, rfl⟩
  have hst : ∃ st, analyzeResults (idCeres V3) ⟨1, 1, 0, 0⟩ [⟨[⟨⟨0, 0⟩, ⟨1, 0, 2⟩⟩], 1, 1⟩] [()] 1 1 = .ok st := by
    unfold analyzeResults
    simp only [List.length_singleton, List.range_one, Res.mapList, ho, Res.ok_bind]
    exact ⟨_, rfl⟩
  obtain ⟨st, hst⟩ := hst
  exact ⟨⟨1, 1, 0, 0⟩, ⟨[⟨⟨0, 0⟩, ⟨1, 0, 2⟩⟩], 1, 1⟩, st, h1, h1, hst⟩

/-! ### 3D projection errors -/

theorem foldl_min_spec (l : List ℝ) (e : ℝ) : l.foldl min e ∈ e :: l ∧ ∀ x ∈ e :: l, l.foldl min e ≤ x := by
  induction l generalizing e with
  | nil => simp
  | cons a l ih =>
    obtain ⟨h1, h2⟩ := ih (min e a)
    simp only [List.foldl_cons]
    refine ⟨?_, ?_⟩
    · rcases List.mem_cons.1 h1 with h | h
      · rcases min_choice e a with h' | h' <;> rw [h, h'] <;> simp
      · simp [h]
    · intro x hx
      have h0 := h2 (min e a) (by simp)
      rcases List.mem_cons.1 hx with rfl | hx
      · exact h0.trans (min_le_left _ _)
      · rcases List.mem_cons.1 hx with rfl | hx
        · exact h0.trans (min_le_right _ _)
        · exact h2 x (by simp [hx])

theorem foldl_max_spec (l : List ℝ) (e : ℝ) : l.foldl max e ∈ e :: l ∧ ∀ x ∈ e :: l, x ≤ l.foldl max e := by
  induction l generalizing e with
  | nil => simp
  | cons a l ih =>
    obtain ⟨h1, h2⟩ := ih (max e a)
    simp only [List.foldl_cons]
    refine ⟨?_, ?_⟩
    · rcases List.mem_cons.1 h1 with h | h
      · rcases max_choice e a with h' | h' <;> rw [h, h'] <;> simp
      · simp [h]
    · intro x hx
      have h0 := h2 (max e a) (by simp)
      rcases List.mem_cons.1 hx with rfl | hx
      · exact (le_max_left _ _).trans h0
      · rcases List.mem_cons.1 hx with rfl | hx
        · exact (le_max_right _ _).trans h0
        · exact h2 x (by simp [hx])

/- C142, full statement: for every data set the analysis reports mean, sample standard deviation, minimum and maximum of the
3D projection errors. One error gives no number for the standard deviation, and none reads outside the array:
`C142_negation`, `C142_empty_negation`. -/
/-- With two errors or more the four numbers are mean, sample standard deviation, minimum and maximum of the errors. -/
theorem C142_partial (obs : List (Obs Corr2)) (intr : Intr) (cam tgt : Iso) (errors : List ℝ)
    (h : projErr3Set obs intr cam tgt = .ok errors) (hn : 2 ≤ errors.length) :
    ∃ m d lo hi, analyze3D obs intr cam tgt = .ok ⟨some m, some d, lo, hi⟩ ∧ SampleStats errors m d lo hi := by
  unfold analyze3D
  rw [h, Res.ok_bind]
  match errors, hn with
  | e :: l, hn =>
    simp only [List.length_cons] at hn
    have h0 : l.length ≠ 0 := by omega
    have h0' : (0 : ℝ) < l.length := by positivity
    simp only [if_neg h0]
    refine ⟨_, _, _, _, rfl, ?_, Real.sqrt_nonneg _, ?_, foldl_min_spec l e, foldl_max_spec l e⟩
    · rw [div_mul_cancel₀]
      simp only [List.length_cons]
      positivity
    · rw [Real.sq_sqrt]
      · simp only [List.length_cons, Nat.cast_add, Nat.cast_one, add_sub_cancel_right]
        rw [div_mul_cancel₀ _ h0'.ne']
      · apply div_nonneg _ h0'.le
        apply List.sum_nonneg
        intro y hy
        obtain ⟨x, -, rfl⟩ := List.mem_map.1 hy
        exact sq_nonneg _

/-- The mean lies between the minimum and the maximum. -/
theorem C142_order (obs : List (Obs Corr2)) (intr : Intr) (cam tgt : Iso) (st : Proj3Stats)
    (h : analyze3D obs intr cam tgt = .ok st) : ∃ m, st.mean = some m ∧ st.min ≤ m ∧ m ≤ st.max := by
  unfold analyze3D at h
  rw [Res.bind_ok_iff] at h
  obtain ⟨errors, -, h⟩ := h
  match errors, h with
  | e :: l, h =>
    simp only [Res.ok.injEq] at h
    subst h
    refine ⟨_, rfl, ?_⟩
    have hpos : (0 : ℝ) < (e :: l).length := by simp only [List.length_cons]; positivity
    have hlo : ∀ (l : List ℝ) (a : ℝ), (∀ x ∈ l, a ≤ x) → a * l.length ≤ l.sum := by
      intro l a
      induction l with
      | nil => simp
      | cons b l ih =>
        intro h
        have h1 := ih fun x hx => h x (by simp [hx])
        have h2 := h b (by simp)
        simp only [List.length_cons, List.sum_cons, Nat.cast_add, Nat.cast_one]
        linarith
    have hhi : ∀ (l : List ℝ) (a : ℝ), (∀ x ∈ l, x ≤ a) → l.sum ≤ a * l.length := by
      intro l a
      induction l with
      | nil => simp
      | cons b l ih =>
        intro h
        have h1 := ih fun x hx => h x (by simp [hx])
        have h2 := h b (by simp)
        simp only [List.length_cons, List.sum_cons, Nat.cast_add, Nat.cast_one]
        linarith
    exact ⟨(le_div_iff₀ hpos).2 (hlo _ _ (foldl_min_spec l e).2), (div_le_iff₀ hpos).2 (hhi _ _ (foldl_max_spec l e).2)⟩

/-- A single error gives no number for the standard deviation. -/
theorem C142_negation (obs : List (Obs Corr2)) (intr : Intr) (cam tgt : Iso) (e : ℝ)
    (h : projErr3Set obs intr cam tgt = .ok [e]) : analyze3D obs intr cam tgt = .ok ⟨some e, none, e, e⟩ := by
  unfold analyze3D
  rw [h, Res.ok_bind]
  simp

/-- Without features the smallest element of an empty array is read. -/
theorem C142_empty_negation (obs : List (Obs Corr2)) (intr : Intr) (cam tgt : Iso) (h : ∀ o ∈ obs, o.corrs = []) (r : List ℝ)
    (hr : projErr3Set obs intr cam tgt = .ok r) : analyze3D obs intr cam tgt = .ub := by
  have hl := C56_count obs intr cam tgt r hr
  have hf : features obs = [] := by
    unfold features
    rw [List.flatMap_eq_nil_iff]
    intro o ho
    rw [h o ho]
    rfl
  rw [hf, List.length_nil, List.length_eq_zero_iff] at hl
  subst hl
  unfold analyze3D
  rw [hr]
  rfl

/-- A target seen without error by a fixed camera, with `n` features. -/
theorem exProj3 (n : Nat) : ∃ (o : Obs Corr2) (i : Intr), o.corrs.length = n ∧
    projErr3Set [o] i 1 1 = .ok (List.replicate n 0) := by
  have h1 : RigidMotion 1 := (rigid_iff 1).1 Iso.IsRigid.one
  have h2 : RigidMotion ⟨1, ⟨0, 0, 2⟩⟩ := (rigid_iff ⟨1, ⟨0, 0, 2⟩⟩).1 M3.IsRot.one
  have e : (1 : Iso).inv * ((1 : Iso).inv * ((⟨1, ⟨0, 0, 2⟩⟩ : Iso) * 1)) = ⟨1, ⟨0, 0, 2⟩⟩ := by simp
  refine ⟨⟨List.replicate n ⟨⟨5, 6⟩, 0⟩, 1, ⟨1, ⟨0, 0, 2⟩⟩⟩, ⟨3, 4, 5, 6⟩, by simp, ?_⟩
  obtain ⟨r, hr, hl, h0⟩ := C56_perfect [⟨List.replicate n ⟨⟨5, 6⟩, 0⟩, 1, ⟨1, ⟨0, 0, 2⟩⟩⟩] ⟨3, 4, 5, 6⟩ (by norm_num) (by norm_num)
    1 1 h1 h1 (by
      intro o ho
      rw [List.mem_singleton] at ho
      subst ho
      refine ⟨h1, h2, ?_⟩
      intro c hc
      have hc := List.eq_of_mem_replicate hc
      subst hc
      have hq : Iso.apply ⟨1, ⟨0, 0, 2⟩⟩ 0 = ⟨0, 0, 2⟩ := by ext <;> simp [Iso.apply]
      unfold Spec.targetInCamera
      simp only [e, hq]
      refine ⟨rfl, by norm_num, by ext <;> simp [pinhole], ?_⟩
      have hn : (⟨0, 0, 2⟩ : V3).norm = 2 := by
        unfold V3.norm
        have : (⟨0, 0, 2⟩ : V3).normSq = 2 ^ 2 := by norm_num [V3.normSq, V3.dot]
        rw [this, Real.sqrt_sq (by norm_num)]
      unfold NotGrazing slope viewDir planeNormal
      simp only [hn]
      norm_num)
  rw [hr]
  congr 1
  rw [List.eq_replicate_iff]
  exact ⟨by simpa [features] using hl, h0⟩

/-- Three errors. -/
example : ∃ obs intr errors, projErr3Set obs intr 1 1 = .ok errors ∧ 2 ≤ errors.length := by
  obtain ⟨o, i, -, h⟩ := exProj3 3
  exact ⟨_, i, _, h, by simp⟩

/-- One error, and none. -/
example : (∃ obs intr e, projErr3Set obs intr 1 1 = .ok [e]) ∧
    ∃ obs intr r, obs ≠ [] ∧ (∀ o ∈ obs, o.corrs = []) ∧ projErr3Set obs intr 1 1 = .ok r := by
  obtain ⟨o, i, -, h⟩ := exProj3 1
  obtain ⟨o', i', hl, h'⟩ := exProj3 0
  exact ⟨⟨_, i, _, h⟩, [o'], i', _, by simp, by simpa using hl, h'⟩

/-! ## The position residual of the kinematic calibration -/

/- C143, full statement: the position residual of a measurement has the length of the distance between measured and
predicted position of the target. The code compares with the inverse on the other side: `C143_negation`. -/
/-- If the rotation between prediction and measurement leaves the predicted position fixed (in particular if there is no
rotation), the position residuals are the components of the difference of the positions, and in no other case. -/
theorem C143_partial (cc tc : DHChain) (w : ℝ) (m : KinMeas) (p : Nat → Mem) (T : Iso)
    (hT : kinCameraToTarget cc tc m.cameraJoints m.targetJoints p = .ok T) (hr : RigidMotion T)
    (hm : RigidMotion m.cameraToTarget) :
    ∃ x y z, kinCost6 cc tc w m p = .ok [x, y, z, w * frameAngle m.cameraToTarget T] ∧
      ((⟨x, y, z⟩ : V3) = m.cameraToTarget.t - T.t ↔ (m.cameraToTarget.R * T.R.tr).mulVec T.t = T.t) := by
  refine ⟨(m.cameraToTarget * T.inv).t.x, (m.cameraToTarget * T.inv).t.y, (m.cameraToTarget * T.inv).t.z, ?_, ?_⟩
  · unfold kinCost6
    rw [hT, Res.ok_bind, ← rel_angle ((rigid_iff _).2 hm) ((rigid_iff _).2 hr)]
  · have : (⟨(m.cameraToTarget * T.inv).t.x, (m.cameraToTarget * T.inv).t.y, (m.cameraToTarget * T.inv).t.z⟩ : V3) =
        m.cameraToTarget.t - (m.cameraToTarget.R * T.R.tr).mulVec T.t := by
      rw [M3.mulVec_mul]
      ext <;> simp [Iso.inv, M3.mulVec] <;> ring
    rw [this]
    constructor
    · intro h
      have hx := congrArg V3.x h
      have hy := congrArg V3.y h
      have hz := congrArg V3.z h
      simp only [V3.sub_x, V3.sub_y, V3.sub_z] at hx hy hz
      ext <;> linarith
    · intro h; rw [h]

/-- For every predicted pose away from the origin there is a measurement that agrees with the predicted position and has
position residuals. -/
theorem C143_negation (cc tc : DHChain) (w : ℝ) (qc qt : List ℝ) (p : Nat → Mem) (T : Iso)
    (hT : kinCameraToTarget cc tc qc qt p = .ok T) (hr : RigidMotion T) (h0 : T.t ≠ ⟨0, 0, 0⟩) :
    ∃ m : KinMeas, m.cameraJoints = qc ∧ m.targetJoints = qt ∧ RigidMotion m.cameraToTarget ∧ originDist T m.cameraToTarget = 0 ∧
      ∃ x y z a, kinCost6 cc tc w m p = .ok [x, y, z, a] ∧ (⟨x, y, z⟩ : V3) ≠ ⟨0, 0, 0⟩ := by
  obtain ⟨S, hS, hSt⟩ : ∃ S : M3, S.IsRot ∧ S.mulVec T.t ≠ T.t := by
    by_cases hx : T.t.x = 0
    · refine ⟨⟨1, 0, 0, 0, -1, 0, 0, 0, -1⟩, ⟨by simp [M3.mul_def, M3.tr, M3.one_def], by norm_num [M3.det]⟩, ?_⟩
      intro h
      have hy := congrArg V3.y h
      have hz := congrArg V3.z h
      simp only [M3.mulVec] at hy hz
      exact h0 (by ext <;> simp only <;> linarith)
    · refine ⟨⟨-1, 0, 0, 0, -1, 0, 0, 0, 1⟩, ⟨by simp [M3.mul_def, M3.tr, M3.one_def], by norm_num [M3.det]⟩, ?_⟩
      intro h
      have hx' := congrArg V3.x h
      simp only [M3.mulVec] at hx'
      exact hx (by linarith)
  have hTr : T.R.IsRot := (rigid_iff _).2 hr
  have hm : RigidMotion (⟨S * T.R, T.t⟩ : Iso) := (rigid_iff _).1 (hS.mul hTr)
  obtain ⟨x, y, z, h1, h2⟩ := C143_partial cc tc w ⟨⟨S * T.R, T.t⟩, qc, qt⟩ p T hT hr hm
  refine ⟨⟨⟨S * T.R, T.t⟩, qc, qt⟩, rfl, rfl, hm, originDist_eq_zero.2 rfl, x, y, z, _, h1, ?_⟩
  intro h
  apply hSt
  have := h2.1 (by rw [h]; ext <;> simp)
  simp only [M3.mul_assoc, hTr.mul_tr, M3.mul_one] at this
  exact this

/-- Two chains without joints whose bases are one metre apart. -/
example : ∃ T : Iso, kinCameraToTarget ⟨[], 1⟩ ⟨[], ⟨1, ⟨1, 0, 0⟩⟩⟩ [] [] (fun _ _ => 0) = .ok T ∧ RigidMotion T ∧ T.t ≠ ⟨0, 0, 0⟩ := by
  have hs : kinTransform (Mem.v3 fun _ => 0) (Mem.v3 fun _ => 0) = 1 := by
    rw [kinTransform_small]
    · rfl
    · have : (Mem.v3 fun _ => 0).norm = 0 := by rw [V3.norm_eq_zero]; rfl
      rw [this]
      have := dblEps_pos
      linarith
  refine ⟨⟨1, ⟨1, 0, 0⟩⟩, ?_, (rigid_iff ⟨1, ⟨1, 0, 0⟩⟩).1 M3.IsRot.one, by simp⟩
  rw [kinCameraToTarget_eq, if_pos (by simp), hs]
  simp [endPose, chainPose]

/-! ## Printed costs -/

theorem v2_norm_sq (v : V2) : v.norm ^ 2 = v.x ^ 2 + v.y ^ 2 := by
  unfold V2.norm V2.normSq
  rw [Real.sq_sqrt (by nlinarith [mul_self_nonneg v.x, mul_self_nonneg v.y])]
  ring

/-- The printed cost of a PnP estimate (features in front of the camera) is half the root mean square distance in the
image, in spite of its unit "pixels per dot". -/
theorem printedCost_eq (s : Ceres V3) (p : PnPProblem Corr2) (res : PnPResult) (h : pnp2 s p = .ok res)
    (hne : p.correspondences ≠ []) (hz : ∀ c ∈ p.correspondences, (res.cameraToTarget.apply c.inTarget).z > 1 / 10 ^ 10) :
    printedCost res.finalCost = some (rmsPixels p.intr res.cameraToTarget p.correspondences / 2) := by
  rw [C124_final s p res h hz]
  have hlen : (pixelErrors p.intr res.cameraToTarget p.correspondences).length = 2 * p.correspondences.length := by
    unfold pixelErrors
    rw [List.length_flatMap]
    simp [diff2, mul_comm]
  have hpos : 0 < p.correspondences.length := List.length_pos_iff.2 hne
  have hsum : Spec.sumSq (pixelErrors p.intr res.cameraToTarget p.correspondences) = (p.correspondences.map fun c =>
      (pinhole p.intr (res.cameraToTarget.apply c.inTarget) - c.inImage).norm ^ 2).sum := by
    unfold pixelErrors Spec.sumSq
    generalize p.correspondences = cs
    induction cs with
    | nil => rfl
    | cons c cs ih =>
      simp only [List.flatMap_cons, List.map_append, List.sum_append, List.map_cons, List.sum_cons, ih]
      congr 1
      rw [v2_norm_sq]
      simp [diff2]
  unfold meanCost printedCost
  rw [if_neg (by intro h0; rw [h0, List.length_nil] at hlen; omega), hsum, hlen]
  simp only [Option.map_some, Option.some.injEq]
  unfold rmsPixels
  have : (2 : ℝ) = Real.sqrt 4 := by
    rw [show (4 : ℝ) = 2 ^ 2 by norm_num, Real.sqrt_sq (by norm_num)]
  rw [this, ← Real.sqrt_div' _ (by norm_num : (0:ℝ) ≤ 4)]
  congr 1
  push_cast
  rw [← this]
  field_simp
  norm_num

/- C144, full statement: the number printed as cost "pixels per dot" is the root mean square distance in pixels between the
projected and the measured image points. It is half of it: `C144_negation`. -/
/-- The printed number is proportional to the root mean square distance, hence zero exactly if that is zero. -/
theorem C144_partial (s : Ceres V3) (p : PnPProblem Corr2) (res : PnPResult) (h : pnp2 s p = .ok res)
    (hne : p.correspondences ≠ []) (hz : ∀ c ∈ p.correspondences, (res.cameraToTarget.apply c.inTarget).z > 1 / 10 ^ 10) :
    ∃ x, printedCost res.finalCost = some x ∧ 2 * x = rmsPixels p.intr res.cameraToTarget p.correspondences ∧
      (x = 0 ↔ ∀ c ∈ p.correspondences, pinhole p.intr (res.cameraToTarget.apply c.inTarget) = c.inImage) := by
  refine ⟨_, printedCost_eq s p res h hne hz, by ring, ?_⟩
  have hpos : (0 : ℝ) < p.correspondences.length := by
    have := List.length_pos_iff.2 hne
    positivity
  have hs : ∀ cs : List Corr2, (cs.map fun c =>
      (pinhole p.intr (res.cameraToTarget.apply c.inTarget) - c.inImage).norm ^ 2).sum = 0 ↔
      ∀ c ∈ cs, pinhole p.intr (res.cameraToTarget.apply c.inTarget) = c.inImage := by
    intro cs
    induction cs with
    | nil => simp
    | cons c cs ih =>
      have h2 : 0 ≤ (cs.map fun c => (pinhole p.intr (res.cameraToTarget.apply c.inTarget) - c.inImage).norm ^ 2).sum := by
        apply List.sum_nonneg
        intro y hy
        obtain ⟨x, -, rfl⟩ := List.mem_map.1 hy
        exact sq_nonneg _
      have h1 : 0 ≤ (pinhole p.intr (res.cameraToTarget.apply c.inTarget) - c.inImage).norm ^ 2 := sq_nonneg _
      have h3 : (pinhole p.intr (res.cameraToTarget.apply c.inTarget) - c.inImage).norm ^ 2 = 0 ↔
          pinhole p.intr (res.cameraToTarget.apply c.inTarget) = c.inImage := by
        rw [v2_norm_sq]
        constructor
        · intro h
          have hx := add_eq_zero_iff_of_nonneg (by positivity) (by positivity) |>.1 h
          have e1 := pow_eq_zero_iff (two_ne_zero) |>.1 hx.1
          have e2 := pow_eq_zero_iff (two_ne_zero) |>.1 hx.2
          simp only [V2.sub_x, V2.sub_y] at e1 e2
          ext <;> linarith
        · intro h; rw [h]; simp
      simp only [List.map_cons, List.sum_cons, List.mem_cons, forall_eq_or_imp]
      rw [add_eq_zero_iff_of_nonneg h1 h2, h3, ih]
  rw [← hs]
  unfold rmsPixels
  constructor
  · intro hx
    have : Real.sqrt ((p.correspondences.map fun c =>
      (pinhole p.intr (res.cameraToTarget.apply c.inTarget) - c.inImage).norm ^ 2).sum / p.correspondences.length) = 0 := by linarith
    rw [Real.sqrt_eq_zero (div_nonneg (List.sum_nonneg (by
      intro y hy
      obtain ⟨x, -, rfl⟩ := List.mem_map.1 hy
      exact sq_nonneg _)) hpos.le), div_eq_zero_iff] at this
    exact this.resolve_right hpos.ne'
  · intro h0
    rw [h0]
    simp

/-- Whenever the fit is not perfect the printed number is wrong. -/
theorem C144_negation (s : Ceres V3) (p : PnPProblem Corr2) (res : PnPResult) (h : pnp2 s p = .ok res)
    (hne : p.correspondences ≠ []) (hz : ∀ c ∈ p.correspondences, (res.cameraToTarget.apply c.inTarget).z > 1 / 10 ^ 10)
    (hr : rmsPixels p.intr res.cameraToTarget p.correspondences ≠ 0) :
    printedCost res.finalCost ≠ some (rmsPixels p.intr res.cameraToTarget p.correspondences) := by
  rw [printedCost_eq s p res h hne hz]
  simp only [ne_eq, Option.some.injEq]
  intro h
  apply hr
  linarith

/-- A point half a pixel away from its projection. -/
example : ∃ (p : PnPProblem Corr2) (res : PnPResult), pnp2 (idCeres V3) p = .ok res ∧ p.correspondences ≠ [] ∧
    (∀ c ∈ p.correspondences, (res.cameraToTarget.apply c.inTarget).z > 1 / 10 ^ 10) ∧
    rmsPixels p.intr res.cameraToTarget p.correspondences ≠ 0 := by
  obtain ⟨res, h⟩ : ∃ res, pnp2 (idCeres V3) ⟨⟨1, 1, 0, 0⟩, [⟨⟨0, 0⟩, ⟨1, 0, 2⟩⟩], 1, "camera_to_target"⟩ = .ok res :=
    pnpFinish_returns _ _ [(⟨⟨0, 0⟩, ⟨1, 0, 2⟩⟩ : Corr2)] (by simp)
      (fun c => ⟨[pnpRot, pnpTrans], evalV2 (pnpCost2 ⟨1, 1, 0, 0⟩ c.inTarget c.inImage)⟩) (fun _ _ => rfl) rfl rfl
  have hT : res.cameraToTarget = 1 := C34_pnp (idCeres V3) ⟨⟨1, 1, 0, 0⟩, [⟨⟨0, 0⟩, ⟨1, 0, 2⟩⟩], 1, "camera_to_target"⟩ res
    (fun _ _ => rfl) Representable.one.1 h
  refine ⟨⟨⟨1, 1, 0, 0⟩, [⟨⟨0, 0⟩, ⟨1, 0, 2⟩⟩], 1, "camera_to_target"⟩, res, h, by simp, ?_, ?_⟩
  · intro c hc
    rw [List.mem_singleton] at hc
    subst hc
    rw [hT, Iso.apply_one]; norm_num
  · unfold rmsPixels
    rw [hT]
    simp only [List.map_cons, List.map_nil, Iso.apply_one, v2_norm_sq]
    norm_num [pinhole]

/-! ## Printed transforms -/

/-- C145: position, fixed-axis angles (roll about x, then pitch about y, then yaw about z) and quaternion all describe the
transform. -/
theorem C145_printed (T : Iso) (h : RigidMotion T) :
    (printTransform T).xyz = T.t ∧
    rotZYX (printTransform T).yaw (printTransform T).pitch (printTransform T).roll = T.R ∧
    TurnsAs T.R (printTransform T).quat ∧ (printTransform T).quat.normSq = 1 := by
  have hR : T.R.IsRot := (rigid_iff _).2 h
  refine ⟨rfl, eulerAngles210_wf T.R hR, ?_, hR.toQuat.1⟩
  have := toMat_turns T.R.toQuat
  rw [hR.toQuat.2] at this
  exact this

/-- Different transforms are printed differently. -/
theorem C145_distinct (A B : Iso) (hA : RigidMotion A) (hB : RigidMotion B) (h : printTransform A = printTransform B) : A = B := by
  obtain ⟨a1, a2, -⟩ := C145_printed A hA
  obtain ⟨b1, b2, -⟩ := C145_printed B hB
  exact Iso.ext (by rw [← a2, ← b2, h]) (by rw [← a1, ← b1, h])

/-- A quarter turn about the z axis. -/
example : RigidMotion (⟨⟨0, -1, 0, 1, 0, 0, 0, 0, 1⟩, ⟨1, 2, 3⟩⟩ : Iso) :=
  (rigid_iff _).1 ⟨by simp [M3.mul_def, M3.tr, M3.one_def], by norm_num [M3.det]⟩

/-- C146: both distances are the distance of the origins, and the angle is the angle between the frames in degrees. -/
theorem C146_diff (A B : Iso) (hA : RigidMotion A) (hB : RigidMotion B) :
    (printTransformDiff A B).deltaS = originDist A B ∧ (printTransformDiff A B).relDeltaS = originDist A B ∧
    (printTransformDiff A B).deltaA = frameAngle A B * (180 / Real.pi) ∧
    (printTransformDiff A B).trans = B.t - A.t ∧
    A.apply (printTransformDiff A B).relTrans = B.t ∧
    A.R * rotZYX (printTransformDiff A B).yaw (printTransformDiff A B).pitch (printTransformDiff A B).roll = B.R := by
  have rA := (rigid_iff _).2 hA
  have rB := (rigid_iff _).2 hB
  have rD : (A.inv * B).R.IsRot := (rA.inv).mul rB
  refine ⟨rfl, rel_norm rA, ?_, rfl, ?_, ?_⟩
  · show 180 * (A.inv * B).R.toAngleAxis.angle / Real.pi = _
    rw [toAngleAxis_angle rD]
    unfold frameAngle
    have : (A.inv * B).R = A.R.tr * B.R := rfl
    rw [this]
    ring
  · have := Iso.apply_inv_apply rA B.t
    have e : (printTransformDiff A B).relTrans = A.inv.apply B.t := by
      show (A.inv * B).t = _
      ext <;> simp [Iso.apply]
    rw [e, this]
  · have e : rotZYX (printTransformDiff A B).yaw (printTransformDiff A B).pitch (printTransformDiff A B).roll = A.R.tr * B.R :=
      eulerAngles210_wf _ rD
    rw [e, ← M3.mul_assoc, M3.IsRot.mul_tr rA, M3.one_mul]

/-- The printed angle lies between 0 and 180 degrees and is 0 exactly for equal orientations; the distance is 0 exactly for
equal positions. -/
theorem C146_zero (A B : Iso) (hA : RigidMotion A) (hB : RigidMotion B) :
    0 ≤ (printTransformDiff A B).deltaA ∧ (printTransformDiff A B).deltaA ≤ 180 ∧
    ((printTransformDiff A B).deltaA = 0 ↔ A.R = B.R) ∧ ((printTransformDiff A B).deltaS = 0 ↔ A.t = B.t) := by
  obtain ⟨h1, -, h3, -⟩ := C146_diff A B hA hB
  have hpi := Real.pi_pos
  rw [h1, h3]
  refine ⟨mul_nonneg (frameAngle_nonneg _ _) (by positivity), ?_, ?_, originDist_eq_zero⟩
  · have : frameAngle A B ≤ Real.pi := Real.arccos_le_pi _
    calc _ ≤ Real.pi * (180 / Real.pi) := mul_le_mul_of_nonneg_right this (by positivity)
      _ = 180 := by field_simp
  · rw [mul_eq_zero, or_iff_left (by positivity), frameAngle_eq_zero ((rigid_iff _).2 hA) ((rigid_iff _).2 hB)]

end RCT
