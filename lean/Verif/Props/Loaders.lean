import Verif.Spec.Loaders
import Verif.Props.Serialization
import Verif.Props.DataSet

/-!
# C81 – C83, C87: parameters, poses, intrinsics and banners
-/

namespace RCT

open Spec Yaml

/-! ## C81 XmlRpc to YAML keeps the structure -/

theorem membersNode_eq (P : XPrinter) (l : List (String × XVal)) :
    membersNode P l = Res.mapList (fun e => (memberNode P e.2).bind fun n => .ok (e.1, n)) l := by
  induction l with
  | nil => rw [membersNode]; rfl
  | cons e l ih =>
    obtain ⟨k, v⟩ := e
    rw [membersNode, ih]
    simp only [Res.mapList]
    cases memberNode P v <;> rfl

theorem scalarNode_same {P : XPrinter} (hP : P.WF) {v : XVal} {n : Yaml} (h : scalarNode P v = .ok n) : SameScalar v n := by
  cases v with
  | bool b => cases h; simp [SameScalar, asBool, hP.base.bool]
  | int i => cases h; simp [SameScalar, asReal, asRealN, hP.int]
  | double x => cases h; simp [SameScalar, asReal, asRealN, hP.base.real]
  | string s => cases h; simp [SameScalar, asString, hP.str]
  | invalid => cases h
  | other c => cases h
  | array l => cases h
  | struct l => cases h

theorem scalarNode_ok {P : XPrinter} {v : XVal} (h : isScalar v = true) : ∃ n, scalarNode P v = .ok n := by
  cases v with
  | bool b => exact ⟨_, rfl⟩
  | int i => exact ⟨_, rfl⟩
  | double x => exact ⟨_, rfl⟩
  | string s => exact ⟨_, rfl⟩
  | invalid => cases h
  | other c => cases h
  | array l => cases h
  | struct l => cases h

theorem mapList_scalar_ok {P : XPrinter} {l : List XVal} (h : ∀ v ∈ l, isScalar v = true) :
    ∃ ns, Res.mapList (scalarNode P) l = .ok ns := by
  induction l with
  | nil => exact ⟨_, rfl⟩
  | cons v l ih =>
    obtain ⟨n, hn⟩ := scalarNode_ok (P := P) (h v (by simp))
    obtain ⟨ns, hns⟩ := ih fun w hw => h w (by simp [hw])
    simp only [Res.mapList, hn, hns]
    exact ⟨_, rfl⟩

theorem isScalar_iff (v : XVal) : isScalar v = true ↔ v.type = 1 ∨ v.type = 2 ∨ v.type = 3 ∨ v.type = 4 := by
  cases v <;> simp [isScalar, XVal.type] <;> omega

theorem arrayNode_ok_iff (P : XPrinter) (l : List XVal) :
    (∃ n, arrayNode P l = .ok n) ↔ SupportedNode (.array l) := by
  unfold arrayNode getArrayType SupportedNode
  cases l with
  | nil => simp
  | cons v vs =>
    simp only
    by_cases hall : (vs.all fun w => w.type == v.type) = true
    · rw [if_pos hall, Res.ok_bind]
      have hall' : ∀ w ∈ v :: vs, w.type = v.type := by
        intro w hw
        rcases List.mem_cons.1 hw with rfl | hw
        · rfl
        · have := List.all_eq_true.1 hall w hw
          simpa using this
      by_cases ht : v.type = 1 ∨ v.type = 2 ∨ v.type = 3 ∨ v.type = 4
      · rw [if_pos ht]
        have hs : ∀ w ∈ v :: vs, isScalar w = true := by
          intro w hw
          rw [isScalar_iff, hall' w hw]; exact ht
        refine ⟨fun _ => ⟨by simp, hs, fun a ha b hb => (hall' a ha).trans (hall' b hb).symm⟩, fun _ => ?_⟩
        obtain ⟨ns, hns⟩ := mapList_scalar_ok (P := P) hs
        rw [hns]
        exact ⟨_, rfl⟩
      · rw [if_neg ht]
        constructor
        · rintro ⟨n, hn⟩; cases hn
        · rintro ⟨-, hs, -⟩
          exact absurd ((isScalar_iff v).1 (hs v (by simp))) ht
    · rw [if_neg hall]
      constructor
      · rintro ⟨n, hn⟩; cases hn
      · rintro ⟨-, -, he⟩
        refine absurd (List.all_eq_true.2 fun w hw => ?_) hall
        simpa using he w (by simp [hw]) v (by simp)

theorem mapList_scalar_outcome (P : XPrinter) (l : List XVal) :
    (∃ ns, Res.mapList (scalarNode P) l = .ok ns) ∨ ∃ e, Res.mapList (scalarNode P) l = .throw e := by
  induction l with
  | nil => exact Or.inl ⟨_, rfl⟩
  | cons v l ih =>
    have hv : (∃ n, scalarNode P v = .ok n) ∨ ∃ e, scalarNode P v = .throw e := by
      cases v <;> first | exact Or.inl ⟨_, rfl⟩ | exact Or.inr ⟨_, rfl⟩
    simp only [Res.mapList]
    rcases hv with ⟨n, hn⟩ | ⟨e, he⟩
    · rw [hn]
      rcases ih with ⟨ns, hns⟩ | ⟨e, he⟩
      · rw [hns]; exact Or.inl ⟨_, rfl⟩
      · rw [he]; exact Or.inr ⟨_, rfl⟩
    · rw [he]; exact Or.inr ⟨_, rfl⟩

theorem arrayNode_outcome (P : XPrinter) (l : List XVal) :
    (∃ n, arrayNode P l = .ok n) ∨ ∃ e, arrayNode P l = .throw e := by
  unfold arrayNode getArrayType
  cases l with
  | nil => exact Or.inr ⟨_, rfl⟩
  | cons v vs =>
    simp only
    split_ifs
    · rw [Res.ok_bind]
      split_ifs
      · rcases mapList_scalar_outcome P (v :: vs) with ⟨ns, hns⟩ | ⟨e, he⟩
        · rw [hns]; exact Or.inl ⟨_, rfl⟩
        · rw [he]; exact Or.inr ⟨_, rfl⟩
      · exact Or.inr ⟨_, rfl⟩
    · exact Or.inr ⟨_, rfl⟩

theorem membersNode_ok {P : XPrinter} {l : List (String × XVal)} {r : List (String × Yaml)} (h : membersNode P l = .ok r) :
    List.Forall₂ (fun e f => e.1 = f.1 ∧ memberNode P e.2 = .ok f.2) l r := by
  rw [membersNode_eq, Res.mapList_ok_iff] at h
  refine h.imp fun e f hef => ?_
  rw [Res.bind_ok_iff] at hef
  obtain ⟨n, hn, hf⟩ := hef
  cases hf
  exact ⟨rfl, hn⟩

theorem forall₂_lookup {R : XVal → Yaml → Prop} {l : List (String × XVal)} {r : List (String × Yaml)}
    (h : List.Forall₂ (fun e f => e.1 = f.1 ∧ R e.2 f.2) l r) (k : String) :
    (l.lookup k = none ∧ r.lookup k = none) ∨ ∃ v n, l.lookup k = some v ∧ r.lookup k = some n ∧ R v n := by
  induction h with
  | nil => exact Or.inl ⟨rfl, rfl⟩
  | cons hef _ ih =>
    rename_i e f l r _
    obtain ⟨a, v⟩ := e
    obtain ⟨b, n⟩ := f
    obtain ⟨h1, h2⟩ := hef
    simp only at h1 h2
    subst h1
    by_cases hk : k = a
    · subst hk
      right
      exact ⟨v, n, by simp [List.lookup], by simp [List.lookup], h2⟩
    · have : (k == a) = false := by simpa using hk
      simpa [List.lookup, this] using ih

theorem lookup_mem {α : Type} {l : List (String × α)} {k : String} {v : α} (h : l.lookup k = some v) : (k, v) ∈ l := by
  induction l with
  | nil => cases h
  | cons e l ih =>
    obtain ⟨a, w⟩ := e
    by_cases hk : k = a
    · subst hk
      simp [List.lookup] at h
      simp [h]
    · have : (k == a) = false := by simpa using hk
      simp only [List.lookup, this] at h
      exact List.mem_cons_of_mem _ (ih h)

theorem lookup_of_mem {α : Type} {l : List (String × α)} {k : String} {v : α} (hn : (l.map Prod.fst).Nodup)
    (h : (k, v) ∈ l) : l.lookup k = some v := by
  induction l with
  | nil => cases h
  | cons e l ih =>
    obtain ⟨a, w⟩ := e
    rw [List.map_cons, List.nodup_cons] at hn
    rcases List.mem_cons.1 h with h | h
    · cases h; simp [List.lookup]
    · have hk : k ≠ a := fun hk => hn.1 (hk ▸ List.mem_map.2 ⟨(k, v), h, rfl⟩)
      have : (k == a) = false := by simpa using hk
      simp only [List.lookup, this]
      exact ih hn.2 h

theorem memberNode_struct {P : XPrinter} {l : List (String × XVal)} {n : Yaml} (h : memberNode P (.struct l) = .ok n) :
    ∃ r, membersNode P l = .ok r ∧ yKeys n = r.map Prod.fst ∧ (∀ k p, yAt (k :: p) n = (r.lookup k).bind (yAt p)) := by
  rw [memberNode, Res.bind_ok_iff] at h
  obtain ⟨r, hr, h⟩ := h
  refine ⟨r, hr, ?_⟩
  cases r with
  | nil => cases h; exact ⟨rfl, fun k p => rfl⟩
  | cons e r => cases h; exact ⟨rfl, fun k p => rfl⟩

/-- The structure of a converted value. -/
theorem memberNode_same {P : XPrinter} (hP : P.WF) (p : List String) : ∀ {v : XVal} {n : Yaml}, memberNode P v = .ok n →
    (∀ u, xAt p v = some u → ∃ w, yAt p n = some w ∧ SameNode u w) ∧
    (∀ w, yAt p n = some w → ∃ u, xAt p v = some u ∧ SameNode u w) := by
  induction p with
  | nil =>
    intro v n h
    have hs : SameNode v n := by
      cases v with
      | struct l =>
        obtain ⟨r, hr, hk, -⟩ := memberNode_struct h
        refine ⟨?_, ?_⟩
        · rw [hk]
          have := membersNode_ok hr
          clear hr hk h
          induction this with
          | nil => rfl
          | cons he _ ih => rw [List.map_cons, List.map_cons, ih, he.1]
        · have hlen := (membersNode_ok hr).length_eq
          rw [memberNode, Res.bind_ok_iff] at h
          obtain ⟨r', hr', h⟩ := h
          rw [hr] at hr'
          cases hr'
          cases h
          cases r with
          | nil => cases l with
            | nil => simp
            | cons _ _ => cases hlen
          | cons _ _ => cases l with
            | nil => cases hlen
            | cons _ _ => simp
      | array l =>
        rw [memberNode] at h
        unfold arrayNode at h
        rw [Res.bind_ok_iff] at h
        obtain ⟨t, -, h⟩ := h
        split_ifs at h
        rw [Res.bind_ok_iff] at h
        obtain ⟨ns, hns, h⟩ := h
        cases h
        rw [Res.mapList_ok_iff] at hns
        exact ⟨ns, rfl, hns.imp fun a b hab => scalarNode_same hP hab⟩
      | bool b => rw [memberNode] at h; exact scalarNode_same (v := .bool b) hP h
      | int b => rw [memberNode] at h; exact scalarNode_same (v := .int b) hP h
      | double b => rw [memberNode] at h; exact scalarNode_same (v := .double b) hP h
      | string b => rw [memberNode] at h; exact scalarNode_same (v := .string b) hP h
      | invalid => rw [memberNode] at h; cases h
      | other c => rw [memberNode] at h; cases h
    constructor
    · intro u hu; cases hu; exact ⟨n, rfl, hs⟩
    · intro w hw; cases hw; exact ⟨v, rfl, hs⟩
  | cons k p ih =>
    intro v n h
    have hscalar : ∀ s : YScalar, yAt (k :: p) (.scalar s) = none := fun _ => rfl
    cases v with
    | struct l =>
      obtain ⟨r, hr, -, hat⟩ := memberNode_struct h
      rw [hat]
      rw [show xAt (k :: p) (.struct l) = (l.lookup k).bind (xAt p) from rfl]
      rcases forall₂_lookup (R := fun v n => memberNode P v = .ok n) (membersNode_ok hr) k with ⟨h1, h2⟩ | ⟨v, n', h1, h2, h3⟩
      · rw [h1, h2]
        exact ⟨fun u hu => (by cases hu), fun w hw => (by cases hw)⟩
      · rw [h1, h2]
        exact ih h3
    | array l =>
      rw [memberNode] at h
      unfold arrayNode at h
      rw [Res.bind_ok_iff] at h
      obtain ⟨t, -, h⟩ := h
      split_ifs at h
      rw [Res.bind_ok_iff] at h
      obtain ⟨ns, -, h⟩ := h
      cases h
      exact ⟨fun u hu => (by cases hu), fun w hw => (by cases hw)⟩
    | bool b => rw [memberNode] at h; cases h; exact ⟨fun u hu => (by cases hu), fun w hw => (by cases hw)⟩
    | int b => rw [memberNode] at h; cases h; exact ⟨fun u hu => (by cases hu), fun w hw => (by cases hw)⟩
    | double b => rw [memberNode] at h; cases h; exact ⟨fun u hu => (by cases hu), fun w hw => (by cases hw)⟩
    | string b => rw [memberNode] at h; cases h; exact ⟨fun u hu => (by cases hu), fun w hw => (by cases hw)⟩
    | invalid => rw [memberNode] at h; cases h
    | other c => rw [memberNode] at h; cases h

/-- A converted struct has the same keys and leaf values at every path, and nothing else. -/
theorem C81_structure (P : XPrinter) (hP : P.WF) (v : XVal) (n : Yaml) (h : toYAML P v = .ok n) (p : List String) :
    (∀ u, xAt p v = some u → ∃ w, yAt p n = some w ∧ SameNode u w) ∧
    (∀ w, yAt p n = some w → ∃ u, xAt p v = some u ∧ SameNode u w) := by
  unfold toYAML at h
  split at h
  · exact memberNode_same hP p h
  · cases h

theorem properStructs_member {l : List (String × XVal)} (h : ProperStructs (.struct l)) {k : String} {v : XVal}
    (hv : (k, v) ∈ l) : ProperStructs v ∧ l.lookup k = some v := by
  have hl := lookup_of_mem (h [] l rfl) hv
  refine ⟨?_, hl⟩
  intro p m hm
  refine h (k :: p) m ?_
  show (l.lookup k).bind (xAt p) = _
  rw [hl]
  exact hm

/-- Whether conversion succeeds; otherwise it throws. -/
theorem memberNode_ok_iff (P : XPrinter) : ∀ (N : Nat) (v : XVal), sizeOf v ≤ N → ProperStructs v →
    ((∃ n, memberNode P v = .ok n) ↔ ∀ p u, xAt p v = some u → SupportedNode u) ∧
    ((∃ n, memberNode P v = .ok n) ∨ ∃ e, memberNode P v = .throw e) := by
  intro N
  induction N with
  | zero => intro v hv; cases v <;> simp at hv <;> omega
  | succ N ih =>
    intro v hv hprop
    have hleaf : ∀ (w : XVal), (∀ k p, xAt (k :: p) w = none) → ((∀ p u, xAt p w = some u → SupportedNode u) ↔ SupportedNode w) := by
      intro w hw
      refine ⟨fun h => h [] w rfl, fun h p u hu => ?_⟩
      cases p with
      | nil => cases hu; exact h
      | cons k p => rw [hw k p] at hu; cases hu
    cases v with
    | struct l =>
      have key : ∀ r : List (String × XVal), (∀ e ∈ r, e ∈ l) →
          ((∃ ns, membersNode P r = .ok ns) ↔ ∀ e ∈ r, ∀ p u, xAt p e.2 = some u → SupportedNode u) ∧
          ((∃ ns, membersNode P r = .ok ns) ∨ ∃ e, membersNode P r = .throw e) := by
        intro r
        induction r with
        | nil => intro _; rw [membersNode]; exact ⟨⟨fun _ e he => absurd he (by simp), fun _ => ⟨_, rfl⟩⟩, Or.inl ⟨_, rfl⟩⟩
        | cons e r ihr =>
          intro hsub
          obtain ⟨k, w⟩ := e
          have hmem : (k, w) ∈ l := hsub _ (by simp)
          have hsize : sizeOf w ≤ N := by
            have h1 := List.sizeOf_lt_of_mem hmem
            simp at hv h1
            omega
          obtain ⟨i1, i2⟩ := ih w hsize (properStructs_member hprop hmem).1
          obtain ⟨j1, j2⟩ := ihr fun e he => hsub e (by simp [he])
          rw [membersNode]
          rcases i2 with ⟨n, hn⟩ | ⟨e, he⟩
          · rw [hn, Res.ok_bind]
            have hw := i1.1 ⟨n, hn⟩
            rcases j2 with ⟨ns, hns⟩ | ⟨e, he⟩
            · rw [hns, Res.ok_bind]
              refine ⟨⟨fun _ e he => ?_, fun _ => ⟨_, rfl⟩⟩, Or.inl ⟨_, rfl⟩⟩
              rcases List.mem_cons.1 he with rfl | he
              · exact hw
              · exact j1.1 ⟨ns, hns⟩ e he
            · rw [he, Res.throw_bind]
              refine ⟨⟨fun ⟨n, hn⟩ => (by cases hn), fun h => ?_⟩, Or.inr ⟨_, rfl⟩⟩
              obtain ⟨ns, hns⟩ := j1.2 fun e he => h e (by simp [he])
              rw [he] at hns; cases hns
          · rw [he, Res.throw_bind]
            refine ⟨⟨fun ⟨n, hn⟩ => (by cases hn), fun h => ?_⟩, Or.inr ⟨_, rfl⟩⟩
            obtain ⟨ns, hns⟩ := i1.2 (h (k, w) (by simp))
            rw [he] at hns; cases hns
      obtain ⟨k1, k2⟩ := key l fun _ h => h
      rw [memberNode]
      have hpath : (∀ p u, xAt p (.struct l) = some u → SupportedNode u) ↔
          ∀ e ∈ l, ∀ p u, xAt p e.2 = some u → SupportedNode u := by
        constructor
        · intro h e he p u hu
          obtain ⟨k, w⟩ := e
          refine h (k :: p) u ?_
          show (l.lookup k).bind (xAt p) = _
          rw [(properStructs_member hprop he).2]
          exact hu
        · intro h p u hu
          cases p with
          | nil => cases hu; trivial
          | cons k p =>
            have hu' : (l.lookup k).bind (xAt p) = some u := hu
            cases hl : l.lookup k with
            | none => rw [hl] at hu'; cases hu'
            | some w =>
              rw [hl] at hu'
              exact h (k, w) (lookup_mem hl) p u hu'
      rw [hpath, ← k1]
      rcases k2 with ⟨ns, hns⟩ | ⟨e, he⟩
      · rw [hns, Res.ok_bind]
        exact ⟨⟨fun _ => ⟨_, rfl⟩, fun _ => ⟨_, rfl⟩⟩, Or.inl ⟨_, rfl⟩⟩
      · rw [he, Res.throw_bind]
        exact ⟨⟨fun ⟨n, hn⟩ => (by cases hn), fun ⟨n, hn⟩ => (by cases hn)⟩, Or.inr ⟨_, rfl⟩⟩
    | array l =>
      rw [memberNode, arrayNode_ok_iff, hleaf (.array l) fun _ _ => rfl]
      refine ⟨Iff.rfl, ?_⟩
      have := arrayNode_outcome P l
      rwa [arrayNode_ok_iff] at this
    | bool b => rw [hleaf (.bool b) fun _ _ => rfl, memberNode]; exact ⟨⟨fun _ => rfl, fun _ => ⟨_, rfl⟩⟩, Or.inl ⟨_, rfl⟩⟩
    | int b => rw [hleaf (.int b) fun _ _ => rfl, memberNode]; exact ⟨⟨fun _ => rfl, fun _ => ⟨_, rfl⟩⟩, Or.inl ⟨_, rfl⟩⟩
    | double b => rw [hleaf (.double b) fun _ _ => rfl, memberNode]; exact ⟨⟨fun _ => rfl, fun _ => ⟨_, rfl⟩⟩, Or.inl ⟨_, rfl⟩⟩
    | string b => rw [hleaf (.string b) fun _ _ => rfl, memberNode]; exact ⟨⟨fun _ => rfl, fun _ => ⟨_, rfl⟩⟩, Or.inl ⟨_, rfl⟩⟩
    | invalid =>
      rw [hleaf .invalid fun _ _ => rfl, memberNode]
      exact ⟨⟨fun ⟨n, hn⟩ => (by cases hn), fun h => (by cases h)⟩, Or.inr ⟨_, rfl⟩⟩
    | other c =>
      rw [hleaf (.other c) fun _ _ => rfl, memberNode]
      exact ⟨⟨fun ⟨n, hn⟩ => (by cases hn), fun h => (by cases h)⟩, Or.inr ⟨_, rfl⟩⟩

/-- Conversion succeeds exactly for structs of supported values; anything else is rejected with an exception. -/
theorem C81_rejects (P : XPrinter) (v : XVal) (hv : ProperStructs v) :
    ((∃ n, toYAML P v = .ok n) ↔ (∃ l, v = .struct l) ∧ ∀ p u, xAt p v = some u → SupportedNode u) ∧
    ((∃ n, toYAML P v = .ok n) ∨ ∃ e, toYAML P v = .throw e) := by
  by_cases hs : ∃ l, v = .struct l
  · obtain ⟨l, rfl⟩ := hs
    obtain ⟨h1, h2⟩ := memberNode_ok_iff P _ (.struct l) (Nat.le_refl _) hv
    refine ⟨⟨fun h => ⟨⟨l, rfl⟩, h1.1 h⟩, fun h => h1.2 h.2⟩, h2⟩
  · have : toYAML P v = .throw .runtimeError := by
      cases v <;> first | rfl | exact absurd ⟨_, rfl⟩ hs
    rw [this]
    exact ⟨⟨fun ⟨n, hn⟩ => (by cases hn), fun h => absurd h.1 hs⟩, Or.inr ⟨_, rfl⟩⟩

/-- A nested struct. -/
def exParam : XVal := .struct [("a", .struct [("b", .int 3)]), ("c", .array [.string "x", .string "y"]), ("d", .struct [])]

theorem exParam_proper : ProperStructs exParam := by
  intro p l h
  match p with
  | [] =>
    injection h with h; injection h with h; subst h
    decide
  | [k] =>
    have h' : List.lookup k [("a", XVal.struct [("b", .int 3)]), ("c", .array [.string "x", .string "y"]), ("d", .struct [])] =
        some (.struct l) := by
      have := h
      simp only [exParam, xAt] at this
      cases hl : List.lookup k [("a", XVal.struct [("b", .int 3)]), ("c", .array [.string "x", .string "y"]), ("d", .struct [])] with
      | none => rw [hl] at this; cases this
      | some w => rw [hl] at this; exact this
    have hm := lookup_mem h'
    simp only [List.mem_cons, Prod.mk.injEq, XVal.struct.injEq, reduceCtorEq, and_false, List.not_mem_nil, or_false, false_or] at hm
    rcases hm with ⟨-, rfl⟩ | ⟨-, rfl⟩ <;> simp
  | k :: k' :: p =>
    exfalso
    have h' := h
    simp only [exParam, xAt] at h'
    cases hl : List.lookup k [("a", XVal.struct [("b", .int 3)]), ("c", .array [.string "x", .string "y"]), ("d", .struct [])] with
    | none => rw [hl] at h'; cases h'
    | some w =>
      rw [hl] at h'
      have hm := lookup_mem hl
      simp only [List.mem_cons, Prod.mk.injEq, List.not_mem_nil, or_false] at hm
      rcases hm with ⟨-, rfl⟩ | ⟨-, rfl⟩ | ⟨-, rfl⟩
      · simp only [Option.bind_some, xAt] at h'
        cases hl2 : List.lookup k' [("b", XVal.int 3)] with
        | none => rw [hl2] at h'; cases h'
        | some w =>
          rw [hl2] at h'
          have hm2 := lookup_mem hl2
          simp only [List.mem_cons, Prod.mk.injEq, List.not_mem_nil, or_false] at hm2
          obtain ⟨-, rfl⟩ := hm2
          cases p <;> cases h'
      · cases h'
      · simp only [Option.bind_some, xAt, List.lookup] at h'
        cases h'

example (P : XPrinter) : ∃ n, toYAML P exParam = .ok n := by
  simp [toYAML, exParam, memberNode, membersNode, arrayNode, getArrayType, XVal.type, Res.mapList, scalarNode]

/-! ## C82 Loaded poses are rigid

Full statement: a pose loaded from parameters or a file is rigid. True for parameters. The quaternion of a file is not
normalised, so a pose from a file is rigid only if the quaternion has unit length (or is real). -/

theorem needDouble_ok_iff (v : XVal) (k : String) (x : ℝ) (hv : v.member k ≠ some .invalid) :
    needDouble v k = .ok x ↔ HasDouble v k x := by
  unfold needDouble readDouble HasDouble
  cases v with
  | struct l =>
    simp only [XVal.member, XVal.struct.injEq, exists_eq_left'] at hv ⊢
    cases hl : l.lookup k with
    | none => simp
    | some w =>
      rw [hl] at hv
      cases w <;> simp [XVal.asDouble] at hv ⊢
  | invalid => simp [XVal.member]
  | bool b => simp [XVal.member]
  | int b => simp [XVal.member]
  | double b => simp [XVal.member]
  | string b => simp [XVal.member]
  | other b => simp [XVal.member]
  | array b => simp [XVal.member]

theorem toAngleAxis_scale {q : Quat} {s : ℝ} (hs : 0 < s) :
    (⟨s * q.w, s * q.x, s * q.y, s * q.z⟩ : Quat).toAngleAxis = q.toAngleAxis := by
  have hn : (⟨s * q.w, s * q.x, s * q.y, s * q.z⟩ : Quat).vec.norm = s * q.vec.norm := by
    unfold V3.norm
    have : (⟨s * q.w, s * q.x, s * q.y, s * q.z⟩ : Quat).vec.normSq = s ^ 2 * q.vec.normSq := by
      simp only [V3.normSq, V3.dot, Quat.vec]; ring
    rw [this, Real.sqrt_mul (by positivity), Real.sqrt_sq hs.le]
  unfold Quat.toAngleAxis
  simp only [hn]
  by_cases h0 : q.vec.norm = 0
  · simp [h0]
  · have h0' : s * q.vec.norm ≠ 0 := mul_ne_zero hs.ne' h0
    simp only [ne_eq, h0', h0, not_false_eq_true, if_true]
    have hw : s * q.w < 0 ↔ q.w < 0 := by
      constructor
      · intro h; by_contra hc; exact absurd (mul_nonneg hs.le (not_lt.1 hc)) (not_le.2 h)
      · intro h; exact mul_neg_of_pos_of_neg hs h
    have hat : atan2 (s * q.vec.norm) |s * q.w| = atan2 q.vec.norm |q.w| := by
      unfold atan2
      rw [abs_mul, abs_of_pos hs]
      have : (⟨s * |q.w|, s * q.vec.norm⟩ : ℂ) = (s : ℂ) * ⟨|q.w|, q.vec.norm⟩ := by
        apply Complex.ext <;> simp
      rw [this, Complex.arg_real_mul _ hs]
    simp only [hw, hat]
    congr 1
    split_ifs
    · ext <;> simp only <;> field_simp
    · ext <;> simp only <;> field_simp

theorem quat_div_normSq (q : Quat) (r : ℝ) (hr : r ≠ 0) :
    (⟨q.w / r, q.x / r, q.y / r, q.z / r⟩ : Quat).normSq = q.normSq / (r * r) := by
  unfold Quat.normSq
  field_simp

/-- The rotation of a pose from parameters is the one of the normalised quaternion. -/
theorem toAngleAxis_normalized {q : Quat} (h : q.normSq ≠ 0) :
    q.toAngleAxis.toMat = (⟨q.w / Real.sqrt q.normSq, q.x / Real.sqrt q.normSq, q.y / Real.sqrt q.normSq, q.z / Real.sqrt q.normSq⟩ : Quat).toMat := by
  have h0 : 0 ≤ q.normSq := by unfold Quat.normSq; nlinarith [mul_self_nonneg q.w, mul_self_nonneg q.x, mul_self_nonneg q.y, mul_self_nonneg q.z]
  have hpos : 0 < Real.sqrt q.normSq := Real.sqrt_pos.2 (lt_of_le_of_ne h0 (Ne.symm h))
  have hsq := Real.mul_self_sqrt h0
  have hu : (⟨q.w / Real.sqrt q.normSq, q.x / Real.sqrt q.normSq, q.y / Real.sqrt q.normSq, q.z / Real.sqrt q.normSq⟩ : Quat).IsUnit := by
    unfold Quat.IsUnit
    have : (⟨q.w / Real.sqrt q.normSq, q.x / Real.sqrt q.normSq, q.y / Real.sqrt q.normSq, q.z / Real.sqrt q.normSq⟩ : Quat).normSq
        = q.normSq / (Real.sqrt q.normSq * Real.sqrt q.normSq) := by
      exact quat_div_normSq q _ hpos.ne'
    rw [this, hsq, div_self h]
  rw [← hu.toAngleAxis.2.2]
  congr 1
  have := toAngleAxis_scale (q := q) (s := 1 / Real.sqrt q.normSq) (by positivity)
  rw [← this]
  congr 1
  ext <;> simp only <;> ring

theorem loadPoseParam_ok {param : Option XVal} {T : Iso} (h : loadPoseParam param = .ok T) :
    RigidMotion T ∧ ∃ xml, ∃ q : Quat, param = some xml ∧
      (needDouble xml "x" = .ok T.t.x ∧ needDouble xml "y" = .ok T.t.y ∧ needDouble xml "z" = .ok T.t.z) ∧
      (needDouble xml "qw" = .ok q.w ∧ needDouble xml "qx" = .ok q.x ∧ needDouble xml "qy" = .ok q.y ∧ needDouble xml "qz" = .ok q.z) ∧
      (q.normSq = 0 → T.R = 1) ∧
      (q.normSq ≠ 0 → T.R = (⟨q.w / Real.sqrt q.normSq, q.x / Real.sqrt q.normSq, q.y / Real.sqrt q.normSq,
        q.z / Real.sqrt q.normSq⟩ : Quat).toMat) := by
  unfold loadPoseParam at h
  cases param with
  | none => cases h
  | some xml =>
    simp only [Res.bind_ok_iff] at h
    obtain ⟨x, hx, y, hy, z, hz, qx, hqx, qy, hqy, qz, hqz, qw, hqw, h⟩ := h
    cases h
    have hrot : (Quat.toAngleAxis ⟨qw, qx, qy, qz⟩).toMat.IsRot := by
      apply AngleAxis.toMat_isRot
      unfold Quat.toAngleAxis
      simp only
      split_ifs with h0
      · have hn : (⟨qw, qx, qy, qz⟩ : Quat).vec.norm * (⟨qw, qx, qy, qz⟩ : Quat).vec.norm = qx * qx + qy * qy + qz * qz :=
          V3.norm_sq (⟨qw, qx, qy, qz⟩ : Quat).vec
        generalize (⟨qw, qx, qy, qz⟩ : Quat).vec.norm = n at *
        simp only [V3.normSq, V3.dot]
        field_simp
        linarith
      · have hn : (⟨qw, qx, qy, qz⟩ : Quat).vec.norm * (⟨qw, qx, qy, qz⟩ : Quat).vec.norm = qx * qx + qy * qy + qz * qz :=
          V3.norm_sq (⟨qw, qx, qy, qz⟩ : Quat).vec
        generalize (⟨qw, qx, qy, qz⟩ : Quat).vec.norm = n at *
        simp only [V3.normSq, V3.dot]
        field_simp
        linarith
      · simp [V3.normSq, V3.dot]
    refine ⟨(rigid_iff ⟨_, ⟨x, y, z⟩⟩).1 hrot, xml, ⟨qw, qx, qy, qz⟩, rfl, ⟨hx, hy, hz⟩, ⟨hqw, hqx, hqy, hqz⟩, ?_, ?_⟩
    · intro h0
      have hv : (⟨qw, qx, qy, qz⟩ : Quat).vec.norm = 0 := by
        have : (⟨qw, qx, qy, qz⟩ : Quat).vec.normSq = 0 := by
          simp only [Quat.normSq] at h0
          simp only [V3.normSq, V3.dot, Quat.vec]
          nlinarith [mul_self_nonneg qw, mul_self_nonneg qx, mul_self_nonneg qy, mul_self_nonneg qz]
        unfold V3.norm
        rw [this, Real.sqrt_zero]
      simp only [Quat.toAngleAxis, hv, ne_eq, not_true_eq_false, if_false]
      exact AngleAxis.toMat_zero_angle _
    · intro h0
      exact toAngleAxis_normalized h0

/-- A pose loaded from parameters is always rigid. -/
theorem C82_parameters (param : Option XVal) (T : Iso) (h : loadPoseParam param = .ok T) : RigidMotion T :=
  (loadPoseParam_ok h).1

/-- It has the given position and the rotation of the normalised quaternion (no rotation for a zero quaternion). -/
theorem C82_parameter_values (xml : XVal) (hv : ∀ k, xml.member k ≠ some .invalid) (T : Iso)
    (h : loadPoseParam (some xml) = .ok T) :
    (HasDouble xml "x" T.t.x ∧ HasDouble xml "y" T.t.y ∧ HasDouble xml "z" T.t.z) ∧ ∃ q : Quat,
      (HasDouble xml "qw" q.w ∧ HasDouble xml "qx" q.x ∧ HasDouble xml "qy" q.y ∧ HasDouble xml "qz" q.z) ∧
      (q.normSq = 0 → T.R = 1) ∧
      (q.normSq ≠ 0 → T.R = (⟨q.w / Real.sqrt q.normSq, q.x / Real.sqrt q.normSq, q.y / Real.sqrt q.normSq,
        q.z / Real.sqrt q.normSq⟩ : Quat).toMat) := by
  obtain ⟨-, xml', q, he, h1, h2, h3⟩ := loadPoseParam_ok h
  cases he
  simp only [needDouble_ok_iff xml _ _ (hv _)] at h1 h2
  exact ⟨h1, q, h2, h3⟩

example : ∃ T, loadPoseParam (some (.struct [("qw", .double 1), ("qx", .double 1), ("qy", .double 0), ("qz", .double 0),
    ("x", .double 1), ("y", .double 2), ("z", .double 3)])) = .ok T := by
  simp [loadPoseParam, needDouble, readDouble, XVal.member, List.lookup, XVal.asDouble]

theorem toMat_isRot_iff (q : Quat) : q.toMat.IsRot ↔ q.vec = ⟨0, 0, 0⟩ ∨ q.IsUnit := by
  constructor
  · intro h
    by_cases hv : q.vec = ⟨0, 0, 0⟩
    · exact Or.inl hv
    · right
      obtain ⟨h1, -⟩ := h
      have e00 := congrArg M3.m00 h1
      have e11 := congrArg M3.m11 h1
      have e22 := congrArg M3.m22 h1
      simp only [Quat.toMat, M3.mul_def, M3.tr, M3.one_def] at e00 e11 e22
      have key : (q.x * q.x + q.y * q.y + q.z * q.z) * (q.normSq - 1) = 0 := by
        unfold Quat.normSq
        linear_combination (e00 + e11 + e22) / 8
      rcases mul_eq_zero.1 key with h0 | h0
      · exfalso
        apply hv
        have hx : q.x = 0 := by nlinarith [mul_self_nonneg q.x, mul_self_nonneg q.y, mul_self_nonneg q.z]
        have hy : q.y = 0 := by nlinarith [mul_self_nonneg q.x, mul_self_nonneg q.y, mul_self_nonneg q.z]
        have hz : q.z = 0 := by nlinarith [mul_self_nonneg q.x, mul_self_nonneg q.y, mul_self_nonneg q.z]
        simp [Quat.vec, hx, hy, hz]
      · unfold Quat.IsUnit; linarith
  · rintro (h | h)
    · have hx : q.x = 0 := congrArg V3.x h
      have hy : q.y = 0 := congrArg V3.y h
      have hz : q.z = 0 := congrArg V3.z h
      have : q.toMat = 1 := by
        simp only [Quat.toMat, hx, hy, hz, M3.one_def]; ext <;> simp
      rw [this]
      exact M3.IsRot.one
    · exact h.toMat_isRot

/-- A pose loaded from a file is rigid exactly if the quaternion in the file has unit length or no vector part. Missing
from the full claim: the other quaternions. -/
theorem C82_partial {Img : Type} (fs : FS Img) (path : String) (T : Iso) (h : loadPoseFile fs path = .ok T) :
    ∃ y, ∃ q : Quat, fs.files path = some (.yaml y) ∧
      (HasNumber y "qw" q.w ∧ HasNumber y "qx" q.x ∧ HasNumber y "qy" q.y ∧ HasNumber y "qz" q.z) ∧
      (RigidMotion T ↔ q.IsUnit ∨ q.vec = ⟨0, 0, 0⟩) := by
  obtain ⟨y, hy, hd⟩ := (loadPoseFile_ok_iff fs path T).1 h
  unfold decIso at hd
  simp only [Res.bind_ok_iff] at hd
  obtain ⟨x, hx, y', hy', z, hz, qw, hqw, qx, hqx, qy, hqy, qz, hqz, hd⟩ := hd
  cases hd
  refine ⟨y, ⟨qw, qx, qy, qz⟩, hy, ⟨field_real.1 hqw, field_real.1 hqx, field_real.1 hqy, field_real.1 hqz⟩, ?_⟩
  rw [← rigid_iff, or_comm]
  exact toMat_isRot_iff _

/-- A file with the quaternion `(1, 1, 0, 0)` is accepted, but the pose is not rigid; the same values as parameters give a
rigid pose. -/
theorem C82_negation {Img : Type} (P : YamlPrinter) (hP : P.WF) (fs : FS Img) (path : String) (x y z : ℝ)
    (h : fs.files path = some (.yaml (.map [("x", P.num x), ("y", P.num y), ("z", P.num z), ("qx", P.num 1), ("qy", P.num 0),
      ("qz", P.num 0), ("qw", P.num 1)]))) :
    ∃ T, loadPoseFile fs path = .ok T ∧ ¬ RigidMotion T := by
  refine ⟨⟨Quat.toMat ⟨1, 1, 0, 0⟩, ⟨x, y, z⟩⟩, ?_, ?_⟩
  · rw [loadPoseFile_ok_iff]
    refine ⟨_, h, ?_⟩
    simp [decIso, Yaml.field, Yaml.key, List.lookup, asNode, hP.asReal]
  · rw [← rigid_iff]
    intro hr
    rcases (toMat_isRot_iff _).1 hr with h | h
    · have := congrArg V3.x h
      simp [Quat.vec] at this
    · simp [Quat.IsUnit, Quat.normSq] at h

/-! ## C83 Loading intrinsics is all or nothing

Full statement: loading from parameters succeeds exactly when all four values are present and numeric, and returns them.
Integers are numeric but are rejected (`C83_negation`). -/

/-- Loading succeeds exactly if the four members are doubles, and returns them; otherwise it throws. Missing from the full
claim: integer members. -/
theorem C83_partial (xml : XVal) (hv : ∀ k, xml.member k ≠ some .invalid) (i : Intr) :
    (loadIntrParam (some xml) = .ok i ↔
      HasDouble xml "fx" i.fx ∧ HasDouble xml "fy" i.fy ∧ HasDouble xml "cx" i.cx ∧ HasDouble xml "cy" i.cy) := by
  unfold loadIntrParam
  simp only [Res.bind_ok_iff, needDouble_ok_iff xml _ _ (hv _), Res.ok.injEq]
  constructor
  · rintro ⟨fx, h1, fy, h2, cx, h3, cy, h4, rfl⟩
    exact ⟨h1, h2, h3, h4⟩
  · rintro ⟨h1, h2, h3, h4⟩
    exact ⟨_, h1, _, h2, _, h3, _, h4, rfl⟩

/-- A parameter with an integer instead of a double is rejected, whatever the other members are. -/
theorem C83_negation (l : List (String × XVal)) (k : String) (hk : k ∈ ["fx", "fy", "cx", "cy"]) (n : Int)
    (h : l.lookup k = some (.int n)) (i : Intr) : loadIntrParam (some (.struct l)) ≠ .ok i := by
  intro hi
  unfold loadIntrParam at hi
  simp only [Res.bind_ok_iff] at hi
  obtain ⟨fx, h1, fy, h2, cx, h3, cy, h4, -⟩ := hi
  have hno : ∀ x, needDouble (.struct l) k ≠ .ok x := by
    intro x hx
    simp [needDouble, readDouble, XVal.member, h, XVal.asDouble] at hx
  simp only [List.mem_cons, List.not_mem_nil, or_false] at hk
  rcases hk with rfl | rfl | rfl | rfl
  · exact hno _ h1
  · exact hno _ h2
  · exact hno _ h3
  · exact hno _ h4

theorem needDouble_outcome (v : XVal) (k : String) : (∃ x, needDouble v k = .ok x) ∨ needDouble v k = .throw .other := by
  unfold needDouble
  cases readDouble v k with
  | none => exact Or.inr rfl
  | some x => exact Or.inl ⟨x, rfl⟩

theorem loadIntrParam_outcome (param : Option XVal) :
    (∃ i, loadIntrParam param = .ok i) ∨ loadIntrParam param = .throw .other := by
  unfold loadIntrParam
  cases param with
  | none => exact Or.inr rfl
  | some xml =>
    simp only
    rcases needDouble_outcome xml "fx" with ⟨x, h⟩ | h <;> rw [h]
    · rw [Res.ok_bind]
      rcases needDouble_outcome xml "fy" with ⟨x, h⟩ | h <;> rw [h]
      · rw [Res.ok_bind]
        rcases needDouble_outcome xml "cx" with ⟨x, h⟩ | h <;> rw [h]
        · rw [Res.ok_bind]
          rcases needDouble_outcome xml "cy" with ⟨x, h⟩ | h <;> rw [h]
          · exact Or.inl ⟨_, rfl⟩
          · exact Or.inr rfl
        · exact Or.inr rfl
      · exact Or.inr rfl
    · exact Or.inr rfl

/-- The variant that returns a flag: true with the loaded value, or false with the caller's value; it never throws. -/
theorem C83_flag (param : Option XVal) (intr : Intr) :
    (∃ i, loadIntrParam param = .ok i ∧ tryLoadIntrParam param intr = .ok (true, i)) ∨
    ((∀ i, loadIntrParam param ≠ .ok i) ∧ tryLoadIntrParam param intr = .ok (false, intr)) := by
  unfold tryLoadIntrParam
  rcases loadIntrParam_outcome param with ⟨i, h⟩ | h
  · left; refine ⟨i, h, ?_⟩; rw [h]; rfl
  · right; rw [h]; exact ⟨fun i hi => (by cases hi), rfl⟩

/-- The same for files, with exactly the documents that describe the four numbers and nothing else. -/
theorem C83_file {Img : Type} (fs : FS Img) (path : String) (i : Intr) :
    loadIntrFile fs path = .ok i ↔ ∃ y, fs.files path = some (.yaml y) ∧ y.size = 4 ∧
      HasNumber y "fx" i.fx ∧ HasNumber y "fy" i.fy ∧ HasNumber y "cx" i.cx ∧ HasNumber y "cy" i.cy := by
  have hex := fun y => C62_exact y i
  simp only [← hex]
  unfold loadIntrFile loadYaml
  cases hf : fs.files path with
  | none => simp
  | some f =>
    cases f with
    | image m => simp
    | broken => simp
    | yaml y =>
      simp only [Res.ok_bind, Option.some.injEq, File.yaml.injEq, exists_eq_left']
      cases hd : decIntr y with
      | ok b => simp
      | throw e => cases e <;> simp
      | abort => simp
      | ub => simp

theorem C83_file_flag {Img : Type} (fs : FS Img) (path : String) (intr : Intr) (b : Bool) (i : Intr)
    (h : tryLoadIntrFile fs path intr = .ok (b, i)) :
    (b = true ∧ loadIntrFile fs path = .ok i) ∨ (b = false ∧ i = intr ∧ ∀ j, loadIntrFile fs path ≠ .ok j) := by
  unfold tryLoadIntrFile at h
  rw [tryCatch_ok_iff] at h
  rcases h with h | ⟨h, e, -, he⟩
  · rw [Res.bind_ok_iff] at h
    obtain ⟨j, hj, h⟩ := h
    cases h
    exact Or.inl ⟨rfl, hj⟩
  · cases h
    refine Or.inr ⟨rfl, rfl, fun j hj => ?_⟩
    rw [hj] at he
    cases he

example : loadIntrParam (some (.struct [("cx", .double 320), ("cy", .double 240), ("fx", .double 600), ("fy", .double 601)])) =
    .ok ⟨600, 601, 320, 240⟩ := by
  simp [loadIntrParam, needDouble, readDouble, XVal.member, List.lookup, XVal.asDouble]

/-! ## C87 Title banner -/

/-- Three lines of equal length; the title in the middle line has a space and the same number of stars on both sides; the
length is at least that of the title plus eight and at least the width, and exceeds the larger of the two by at most one. -/
theorem C87_banner (title : List Char) (width : Int) :
    ∃ (stars len : Nat), printTitle title width =
        [List.replicate len '*', List.replicate stars '*' ++ [' '] ++ title ++ [' '] ++ List.replicate stars '*', List.replicate len '*'] ∧
      2 * stars + 2 + title.length = len ∧ title.length + 8 ≤ len ∧ width ≤ len ∧
      ((len : Int) ≤ max (title.length + 8 : Int) width + 1) := by
  unfold printTitle
  simp only
  generalize hL : (if (title.length + 8 : Int) < width then width else title.length + 8) = L
  have hL1 : (title.length + 8 : Int) ≤ L := by rw [← hL]; split_ifs <;> omega
  have hL2 : width ≤ L := by rw [← hL]; split_ifs <;> omega
  have hL3 : L ≤ max (title.length + 8 : Int) width := by
    rw [← hL]; split_ifs
    · exact le_max_right _ _
    · exact le_max_left _ _
  by_cases he : (L - title.length) / 2 + (L - title.length) / 2 + title.length = L
  · simp only [if_pos he]
    refine ⟨_, _, rfl, ?_, ?_, ?_, ?_⟩ <;> omega
  · simp only [if_neg he]
    refine ⟨_, _, rfl, ?_, ?_, ?_, ?_⟩ <;> omega

example : printTitle "ab".toList 11 = ["************".toList, "**** ab ****".toList, "************".toList] := by decide

end RCT
