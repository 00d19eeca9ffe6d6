import Verif.Props.Serialization

/-!
# C223 Documents that do not decode give an exception of the YAML library
-/

namespace RCT

open Yaml Spec

namespace Spec

/-- The call returns a value or throws an exception of yaml-cpp. -/
def ValueOrYaml {α : Type} (r : Res α) : Prop := r.Returns ∨ r = .throw .yaml

/-- The document states a joint type other than the two known ones. -/
def UnknownJoint (n : Yaml) : Prop := ∃ l s k, n = .map l ∧ l.lookup "type" = some (.scalar s) ∧ s.uns = some k ∧ k ≠ 0 ∧ k ≠ 1

/-- The document lists a joint of unknown type. -/
def ListsUnknownJoint (n : Yaml) : Prop :=
  ∃ l t, n = .map l ∧ l.lookup "dh_transforms" = some t ∧
    ∃ u, UnknownJoint u ∧ ((∃ js, t = .seq js ∧ u ∈ js) ∨ ∃ m, ∃ i : Nat, t = .map m ∧ m.lookup (toString i) = some u)

end Spec

namespace Spec.ValueOrYaml

theorem ok {α : Type} (a : α) : ValueOrYaml (.ok a) := .inl ⟨a, rfl⟩
theorem yaml {α : Type} : ValueOrYaml (.throw .yaml : Res α) := .inr rfl

theorem bind {α β : Type} {r : Res α} {f : α → Res β} (h : ValueOrYaml r) (hf : ∀ a, ValueOrYaml (f a)) : ValueOrYaml (r.bind f) := by
  rcases h with ⟨a, rfl⟩ | rfl
  · exact hf a
  · exact .inr rfl

theorem mapList {α β : Type} {f : α → Res β} (hf : ∀ a, ValueOrYaml (f a)) (l : List α) : ValueOrYaml (Res.mapList f l) := by
  induction l with
  | nil => exact ok []
  | cons a l ih => exact (hf a).bind fun _ => ih.bind fun _ => ok _

theorem key (n : Yaml) (k : String) : ValueOrYaml (n.key k) := by
  cases n
  · exact ok _
  · exact yaml
  · exact ok _
  · exact ok _

theorem node {α : Type} {dec : Yaml → Res α} (hd : ∀ n, ValueOrYaml (dec n)) (n : Option Yaml) : ValueOrYaml (asNode dec n) := by
  cases n
  · exact yaml
  · exact hd _

theorem field {α : Type} {dec : Yaml → Res α} (hd : ∀ n, ValueOrYaml (dec n)) (n : Yaml) (k : String) :
    ValueOrYaml (n.field k dec) := (key n k).bind (node hd)

theorem vector {α : Type} {dec : Yaml → Res α} (hd : ∀ n, ValueOrYaml (dec n)) (n : Yaml) : ValueOrYaml (asVector dec n) := by
  cases n
  · exact yaml
  · exact yaml
  · exact mapList hd _
  · exact yaml

theorem ite {α : Type} {p : Prop} [Decidable p] {a b : Res α} (ha : ValueOrYaml a) (hb : ValueOrYaml b) :
    ValueOrYaml (if p then a else b) := by
  split
  · exact ha
  · exact hb

theorem realN (n : Yaml) : ValueOrYaml n.asRealN := by
  unfold asRealN
  split
  · split
    · exact ok _
    · exact yaml
  · exact yaml

theorem real (n : Yaml) : ValueOrYaml n.asReal := (realN n).bind fun x => by
  cases x
  · exact yaml
  · exact ok _

theorem unsigned (n : Yaml) : ValueOrYaml n.asUnsigned := by
  unfold asUnsigned
  split
  · split
    · exact ok _
    · exact yaml
  · exact yaml

theorem boolean (n : Yaml) : ValueOrYaml n.asBool := by
  unfold asBool
  split
  · split
    · exact ok _
    · exact yaml
  · exact yaml

theorem string (n : Yaml) : ValueOrYaml n.asString := by
  unfold asString
  split
  · exact ok _
  · exact yaml

end Spec.ValueOrYaml

open Spec.ValueOrYaml in
/-- Points, transforms, intrinsics and correspondences: every document decodes or gives an exception of the YAML library. -/
theorem C223_values (n : Yaml) : ValueOrYaml (decV2 n) ∧ ValueOrYaml (decV3 n) ∧ ValueOrYaml (decIso n) ∧ ValueOrYaml (decIntr n) ∧
    ValueOrYaml (decCorr2 n) ∧ ValueOrYaml (decCorr3 n) := by
  have h2 : ∀ n, ValueOrYaml (decV2 n) := fun n => (field real n _).bind fun _ => (field real n _).bind fun _ => ok _
  have h3 : ∀ n, ValueOrYaml (decV3 n) := fun n => (field real n _).bind fun _ => (field real n _).bind fun _ =>
    (field real n _).bind fun _ => ok _
  refine ⟨h2 n, h3 n, ?_, ?_, ?_, ?_⟩
  · exact (field real n _).bind fun _ => (field real n _).bind fun _ => (field real n _).bind fun _ =>
      (field real n _).bind fun _ => (field real n _).bind fun _ => (field real n _).bind fun _ => (field real n _).bind fun _ => ok _
  · exact ite yaml ((field real n _).bind fun _ => (field real n _).bind fun _ => (field real n _).bind fun _ =>
      (field real n _).bind fun _ => ok _)
  · exact ite yaml ((field h2 n _).bind fun _ => (field h3 n _).bind fun _ => ok _)
  · exact ite yaml ((field h3 n _).bind fun _ => (field h3 n _).bind fun _ => ok _)

open Spec.ValueOrYaml in
/-- The same for observations, hand-eye problems and results. -/
theorem C223_problems (n : Yaml) : ValueOrYaml (decObs decCorr2 n) ∧ ValueOrYaml (decObs decCorr3 n) ∧ ValueOrYaml (decProblem2 n) ∧
    ValueOrYaml (decProblem3 n) ∧ ValueOrYaml (decResult n) := by
  have hi : ∀ n, ValueOrYaml (decIso n) := fun n => (C223_values n).2.2.1
  have h3 : ∀ n, ValueOrYaml (decV3 n) := fun n => (C223_values n).2.1
  have ho : ∀ {κ : Type} {dec : Yaml → Res κ}, (∀ n, ValueOrYaml (dec n)) → ∀ n, ValueOrYaml (decObs dec n) := fun hd n =>
    ite yaml ((field (vector hd) n _).bind fun _ => (field hi n _).bind fun _ => (field hi n _).bind fun _ => ok _)
  have ho2 := ho fun n => (C223_values n).2.2.2.2.1
  have ho3 := ho fun n => (C223_values n).2.2.2.2.2
  refine ⟨ho2 n, ho3 n, ?_, ?_, ?_⟩
  · exact ite yaml ((field (fun n => (C223_values n).2.2.2.1) n _).bind fun _ => (field hi n _).bind fun _ =>
      (field hi n _).bind fun _ => (field (vector ho2) n _).bind fun _ => ok _)
  · exact ite yaml ((field hi n _).bind fun _ => (field hi n _).bind fun _ => (field (vector ho3) n _).bind fun _ => ok _)
  · exact ite yaml ((field boolean n _).bind fun _ => (field realN n _).bind fun _ => (field realN n _).bind fun _ =>
      (field h3 n _).bind fun _ => (field h3 n _).bind fun _ => (field h3 n _).bind fun _ => (field h3 n _).bind fun _ => ok _)

open Spec.ValueOrYaml in
/-- A joint of a chain: an unknown type gives `std::runtime_error`, every other document decodes or gives an exception of the YAML
library. -/
theorem C223_joint (seed : Nat) (n : Yaml) :
    (UnknownJoint n → decDHTransform seed n = .throw .runtimeError) ∧ (¬ UnknownJoint n → ValueOrYaml (decDHTransform seed n)) := by
  constructor
  · rintro ⟨l, s, k, rfl, h, hs, h0, h1⟩
    exact C65_type seed l s k h hs h0 h1
  · intro hn
    unfold decDHTransform
    rcases field unsigned n "type" with ⟨ty, hty⟩ | h
    · rw [hty, Res.ok_bind]
      have hrest : ∀ type : JointType, ValueOrYaml ((n.key "d").bind fun d => (n.key "theta").bind fun theta => (n.key "r").bind fun r =>
          (n.key "alpha").bind fun alpha => (asNode asReal d).bind fun d => (asNode asReal theta).bind fun theta =>
          (asNode asReal r).bind fun r => (asNode asReal alpha).bind fun alpha => (n.field "joint_name" asString).bind fun name =>
          .ok (⟨⟨d, theta, r, alpha⟩, type, -Real.pi, Real.pi, name, seed⟩ : DHTransform)) := fun type =>
        (ValueOrYaml.key n _).bind fun _ => (ValueOrYaml.key n _).bind fun _ => (ValueOrYaml.key n _).bind fun _ =>
          (ValueOrYaml.key n _).bind fun _ => (node real _).bind fun _ =>
          (node real _).bind fun _ => (node real _).bind fun _ => (node real _).bind fun _ => (field string n _).bind fun _ => ok _
      by_cases h0 : ty = 0
      · rw [if_pos h0, Res.ok_bind]; exact hrest _
      · by_cases h1 : ty = 1
        · rw [if_neg h0, if_pos h1, Res.ok_bind]; exact hrest _
        · obtain ⟨l, s, rfl, hl, hs⟩ := field_unsigned.1 hty
          exact absurd ⟨l, s, ty, rfl, hl, hs, h0, h1⟩ hn
    · rw [h]; exact yaml

theorem fold_outcome {α σ : Type} {f : σ → α → Res σ} (P : Prop) (h : ∀ s a, ValueOrYaml (f s a) ∨ P ∧ f s a = .throw .runtimeError)
    (s : σ) (l : List α) : ValueOrYaml (Res.foldList f s l) ∨ P ∧ Res.foldList f s l = .throw .runtimeError := by
  induction l generalizing s with
  | nil => exact .inl (Spec.ValueOrYaml.ok s)
  | cons a l ih =>
    rw [Res.foldList_cons]
    rcases h s a with (⟨s', h⟩ | h) | ⟨hp, h⟩
    · rw [h, Res.ok_bind]; exact ih s'
    · rw [h]; exact .inl Spec.ValueOrYaml.yaml
    · rw [h]; exact .inr ⟨hp, rfl⟩

open Spec.ValueOrYaml in
/-- A chain: `std::runtime_error` only if a joint of unknown type is listed, otherwise the document decodes or gives an exception of
the YAML library. -/
theorem C223_chain (seed : Nat → Nat) (n : Yaml) :
    ValueOrYaml (decDHChain seed n) ∨ ListsUnknownJoint n ∧ decDHChain seed n = .throw .runtimeError := by
  unfold decDHChain
  rcases field (fun n => (C223_values n).2.2.1) n "base_transform" with ⟨b, hb⟩ | hb
  swap
  · rw [hb]; exact .inl yaml
  rw [hb, Res.ok_bind]
  cases n with
  | scalar s => exact .inl yaml
  | null => exact .inl yaml
  | seq l => exact .inl yaml
  | map l =>
    simp only [Yaml.key, Res.ok_bind]
    cases hl : l.lookup "dh_transforms" with
    | none => exact .inl yaml
    | some t =>
      rw [show ∀ d : Yaml → Res (List DHTransform), asNode d (some t) = d t from fun _ => rfl]
      obtain ⟨P, hP⟩ : ∃ P : Prop, P = ListsUnknownJoint (.map l) := ⟨_, rfl⟩
      have step : ∀ (acc : List DHTransform) (i : Nat),
          ValueOrYaml ((t.idx i).bind fun e => (asNode (decDHTransform (seed i)) e).bind fun j => .ok (acc ++ [j])) ∨
          P ∧ ((t.idx i).bind fun e => (asNode (decDHTransform (seed i)) e).bind fun j => .ok (acc ++ [j])) = .throw .runtimeError := by
        intro acc i
        have one : ∀ e : Option Yaml, (∀ u, e = some u → UnknownJoint u → P) →
            ValueOrYaml ((asNode (decDHTransform (seed i)) e).bind fun j => .ok (acc ++ [j])) ∨
            P ∧ ((asNode (decDHTransform (seed i)) e).bind fun j => .ok (acc ++ [j])) = .throw .runtimeError := by
          intro e he
          cases e with
          | none => exact .inl yaml
          | some u =>
            by_cases hu : UnknownJoint u
            · simp only [asNode]
              rw [(C223_joint (seed i) u).1 hu]
              exact .inr ⟨he u rfl hu, rfl⟩
            · exact .inl (((C223_joint (seed i) u).2 hu).bind fun _ => ok _)
        cases t with
        | null => exact .inl yaml
        | scalar s => exact .inl yaml
        | seq us =>
          simp only [Yaml.idx, Res.ok_bind]
          exact one _ fun u hu hun => hP ▸ ⟨l, _, rfl, hl, u, hun, .inl ⟨us, rfl, List.mem_of_getElem? hu⟩⟩
        | map m =>
          simp only [Yaml.idx, Res.ok_bind]
          exact one _ fun u hu hun => hP ▸ ⟨l, _, rfl, hl, u, hun, .inr ⟨m, i, rfl, hu⟩⟩
      rcases fold_outcome P step [] (List.range t.size) with (⟨ts, h⟩ | h) | ⟨hp, h⟩
      · rw [h]; exact .inl (ok _)
      · rw [h]; exact .inl yaml
      · rw [h]; exact .inr ⟨hP ▸ hp, rfl⟩

/-- A listed joint of type 2. -/
example : ListsUnknownJoint (.map [("dh_transforms", .seq [.map [("type", .scalar ⟨"2", some (some 2), some 2, none⟩)]])]) :=
  ⟨_, _, rfl, rfl, _, ⟨_, _, 2, rfl, rfl, rfl, by norm_num, by norm_num⟩, .inl ⟨_, rfl, List.mem_singleton_self _⟩⟩

end RCT
