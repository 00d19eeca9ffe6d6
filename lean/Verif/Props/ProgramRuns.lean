import Verif.Props.Programs
import Verif.Props.Analysis
import Verif.Props.Redundant
import Verif.Props.Collector
import Verif.Props.SimKinematics

/-!
# C164-C166 Runs of the example programs
-/

namespace RCT

open Spec

/-! ## C164 The kinematic example

Full statement: for every set of measurements that can be loaded the example calibrates twice, with and without offsets of
the joints, and compares both results with the measurements. It is false for measurements of a camera that is moved by
joints and without measurements (`C164_negation`, `C164_negation_empty`). -/

theorem positioner_dof (seed : Nat) : (twoAxisPositioner seed).dof = 2 := rfl

theorem positioner_base (seed : Nat) : (twoAxisPositioner seed).base.IsRigid := by
  have hu : (⟨1, 0, 0⟩ : V3).normSq = 1 := by simp [V3.normSq, V3.dot]
  unfold twoAxisPositioner Iso.rotateBy Iso.translateBy
  refine Iso.IsRigid.mul (Iso.IsRigid.mul Iso.IsRigid.one ?_) ?_
  · exact M3.IsRot.one
  · exact AngleAxis.toMat_isRot hu

theorem lastRowMask_two : lastRowMask 2 = [1, 3, 5, 7] := by decide

theorem allMask_two : allMask 2 = [0, 2, 4, 6, 1, 3, 5, 7] := by decide

/-- The masks of the example for one of its runs. -/
def IsExampleMask (mask : List Int) : Prop := mask = lastRowMask 2 ∨ mask = allMask 2

theorem IsExampleMask.bounds {mask : List Int} (h : IsExampleMask mask) : ∀ k ∈ mask, 0 ≤ k ∧ k < 8 := by
  rcases h with rfl | rfl
  · rw [lastRowMask_two]; simp
  · rw [allMask_two]; simp

theorem kinExample_size (seed : Nat) (cm tm : Iso) (mask : List Int) (a : Fin 8) :
    kinSize (kinExampleProblem seed cm tm mask) a = if a = 0 then 4 else if a = 1 then 8 else 3 := by
  fin_cases a <;> simp [kinSize, kinRows, kinExampleProblem, positioner_dof, DHChain.dof] <;> rfl

theorem kinExample_masks {seed : Nat} {cm tm : Iso} {mask : List Int} (h : IsExampleMask mask) (a : Fin 8) :
    ∀ k ∈ (kinExampleProblem seed cm tm mask).masks a, 0 ≤ k ∧ k < kinSize (kinExampleProblem seed cm tm mask) a := by
  have hb := h.bounds
  intro k hk
  rw [kinExample_size]
  fin_cases a <;> simp [kinExampleProblem] at hk ⊢
  · exact hb k hk
  · omega
  · omega

theorem kinExample_sane {seed : Nat} {cm tm : Iso} {mask : List Int} (h : IsExampleMask mask) :
    KinSane (kinExampleProblem seed cm tm mask) := by
  constructor
  · intro a k hk
    have := kinExample_masks h a k hk
    rw [kinExample_size] at this
    unfold IsInt
    split at this
    · omega
    · split at this <;> omega
  · intro a
    rw [kinExample_size]
    split
    · norm_num
    · split <;> norm_num

theorem mem_createDHMask_int {rows : Nat} {f : Nat → Nat → Bool} {row : Nat} {c : Fin 4} (hr : row < rows) (hf : f row c = true) :
    ((rows * c + row : Nat) : Int) ∈ (createDHMask rows f).map fun k : Nat => (k : Int) :=
  List.mem_map.2 ⟨_, (createDHMask_mem _ _ _).2 ⟨row, c, hr, c.2, hf, rfl⟩, rfl⟩

theorem V4.eq_zero_of_entries {v : V4} (h : ∀ c : Fin 4, entry v c = 0) : v = 0 := by
  obtain ⟨d, th, r, al⟩ := v
  have h0 := h 0
  have h1 := h 1
  have h2 := h 2
  have h3 := h 3
  simp only [entry] at h0 h1 h2 h3
  subst h0 h1 h2 h3
  rfl

theorem kinRepresentable_of_one : KinRepresentable (1 : Iso) := ⟨Representable.one.1, Or.inl (by
  unfold rotAngle
  rw [show ((1 : Iso).R.m00 + (1 : Iso).R.m11 + (1 : Iso).R.m22 - 1) / 2 = 1 by simp]
  exact Real.arccos_one)⟩

theorem kinExample_frozen {K : KCeres} (hK : K.WF) {seed : Nat} {cm tm : Iso} {mask : List Int} {w : ℝ} {ms : List KinMeas}
    {r : KinResult} (h : kinematic6 K (kinExampleProblem seed cm tm mask) w ms = .ok r) :
    r.cbToTb = 1 ∧ r.cameraOffsets = [] ∧ r.targetOffsets.length = 2 := by
  refine ⟨?_, ?_, ?_⟩
  · have hpos := fun j => (C46_positions_frozen K hK _ _ r h j).2.2
    have hrot := (C46_rotations_frozen K hK _ _ r h).2.2 (by intro j; fin_cases j <;> simp [kinExampleProblem])
      kinRepresentable_of_one
    have ht : r.cbToTb.t = (1 : Iso).t := by
      have h0 := hpos 0 (by simp [kinExampleProblem])
      have h1 := hpos 1 (by simp [kinExampleProblem])
      have h2 := hpos 2 (by simp [kinExampleProblem])
      exact V3.ext h0 h1 h2
    exact Iso.ext hrot ht
  · exact List.length_eq_zero_iff.1 (C47_tables K hK _ _ r h).1
  · exact (C47_tables K hK _ _ r h).2.1

/-- First run: the transform between the bases and the offsets of the last joint keep their values, so that only the offsets
of the first joint are calibrated. -/
theorem C164_first_run (K : KCeres) (hK : K.WF) (seed : Nat) (cm tm : Iso) (w : ℝ) (ms : List KinMeas) (r : KinResult)
    (h : kinematic6 K (kinExampleProblem seed cm tm (lastRowMask (twoAxisPositioner seed).dof)) w ms = .ok r) :
    r.cbToTb = 1 ∧ r.cameraOffsets = [] ∧ ∃ o, r.targetOffsets = [o, 0] := by
  obtain ⟨h1, h2, h3⟩ := kinExample_frozen hK h
  refine ⟨h1, h2, ?_⟩
  obtain ⟨a, b, hab⟩ := List.length_eq_two.1 h3
  have hb : b = 0 := V4.eq_zero_of_entries fun c =>
    (C46_offsets_frozen K hK _ _ r h 1 c b).2 (mem_createDHMask_int (rows := 2) (by norm_num) (by simp [positioner_dof])) (by rw [hab]; rfl)
  exact ⟨a, by rw [hab, hb]⟩

/-- Second run: nothing of the chain is calibrated. -/
theorem C164_second_run (K : KCeres) (hK : K.WF) (seed : Nat) (cm tm : Iso) (w : ℝ) (ms : List KinMeas) (r : KinResult)
    (h : kinematic6 K (kinExampleProblem seed cm tm (allMask (twoAxisPositioner seed).dof)) w ms = .ok r) :
    r.cbToTb = 1 ∧ r.cameraOffsets = [] ∧ r.targetOffsets = [0, 0] := by
  obtain ⟨h1, h2, h3⟩ := kinExample_frozen hK h
  refine ⟨h1, h2, ?_⟩
  obtain ⟨a, b, hab⟩ := List.length_eq_two.1 h3
  have ha : a = 0 := V4.eq_zero_of_entries fun c =>
    (C46_offsets_frozen K hK _ _ r h 0 c a).2 (mem_createDHMask_int (rows := 2) (by norm_num) (by simp)) (by rw [hab]; rfl)
  have hb : b = 0 := V4.eq_zero_of_entries fun c =>
    (C46_offsets_frozen K hK _ _ r h 1 c b).2 (mem_createDHMask_int (rows := 2) (by norm_num) (by simp)) (by rw [hab]; rfl)
  rw [hab, ha, hb]

/-- Measurements for the example: no joints move the camera, up to two move the target, and the measured poses are rigid. -/
def ExampleMeas (ms : List KinMeas) : Prop :=
  ∀ m ∈ ms, m.cameraJoints = [] ∧ m.targetJoints.length ≤ 2 ∧ RigidMotion m.cameraToTarget

theorem kinExample_comparable {K : KCeres} (hK : K.WF) {seed : Nat} {cm tm : Iso} {mask : List Int} {w : ℝ} {ms : List KinMeas}
    {r : KinResult} (h : kinematic6 K (kinExampleProblem seed cm tm mask) w ms = .ok r) (hm : ExampleMeas ms) :
    Comparable ⟨[], 1⟩ (twoAxisPositioner seed) r ms := by
  obtain ⟨h1, h2, h3⟩ := kinExample_frozen hK h
  obtain ⟨r1, r2, r3⟩ := C47_rigid K hK _ _ r h
  refine ⟨Representable.one.1, (rigid_iff _).1 (positioner_base seed), r1, r2, r3, by simp, by rw [h3]; rfl, fun m hmem => ?_⟩
  obtain ⟨e1, e2, e3⟩ := hm m hmem
  exact ⟨by rw [e1]; simp, e2, e3⟩

/-- The statistics of both runs: distances and angles between the measured poses and the poses that follow from the result.
In the second run, these use the nominal chain. -/
theorem C164_statistics (K K' : KCeres) (hK : K.WF) (hK' : K'.WF) (rd rd' rd'' rd''' : Nat → Nat) (seed : Nat) (cm tm : Iso)
    (ms : List KinMeas) (hm : ExampleMeas ms) (hne : ms ≠ []) (r r' : KinResult) (st st' : KinStats)
    (h : kinExampleMain K K' rd rd' rd'' rd''' seed cm tm ms = .ok ((r, st), (r', st'))) :
    (∃ o preds pm pd am ad, r.targetOffsets = [o, 0] ∧
      List.Forall₂ (fun m X => RigidMotion X ∧ r.cmToC * X = endPose (twoAxisPositioner seed) [o, 0] m.targetJoints * r.tmToT) ms preds ∧
      st = ⟨some pm, some pd, some am, some ad⟩ ∧
      MeanStdev (List.zipWith originDist preds (ms.map (·.cameraToTarget))) pm pd ∧
      MeanStdev (List.zipWith frameAngle preds (ms.map (·.cameraToTarget))) am ad) ∧
    ∃ preds pm pd am ad,
      List.Forall₂ (fun m X => RigidMotion X ∧ r'.cmToC * X = endPose (twoAxisPositioner seed) [0, 0] m.targetJoints * r'.tmToT) ms preds ∧
      st' = ⟨some pm, some pd, some am, some ad⟩ ∧
      MeanStdev (List.zipWith originDist preds (ms.map (·.cameraToTarget))) pm pd ∧
      MeanStdev (List.zipWith frameAngle preds (ms.map (·.cameraToTarget))) am ad := by
  unfold kinExampleMain kinExampleRun at h
  simp only [Res.bind_ok_iff] at h
  obtain ⟨⟨a, sa⟩, ⟨r1, hr1, s1, hs1, e1⟩, ⟨b, sb⟩, ⟨r2, hr2, s2, hs2, e2⟩, e⟩ := h
  cases e1; cases e2; cases e
  have hc0 : ∀ offs q, endPose ⟨[], 1⟩ offs q = 1 := fun offs q => by unfold endPose; cases offs <;> cases q <;> rfl
  constructor
  · obtain ⟨hb, ho, o, hof⟩ := C164_first_run K hK seed cm tm 100 ms r hr1
    obtain ⟨preds, pm, pd, am, ad, hp, hst, k1, k2⟩ := C139_stats (kinExample_comparable hK hr1 hm) hne rd rd'
    rw [show (kinExampleProblem seed cm tm (lastRowMask (twoAxisPositioner seed).dof)).cameraChain = ⟨[], 1⟩ from rfl,
      show (kinExampleProblem seed cm tm (lastRowMask (twoAxisPositioner seed).dof)).targetChain = twoAxisPositioner seed from rfl,
      hst] at hs1
    cases hs1
    refine ⟨o, preds, pm, pd, am, ad, hof, hp.imp ?_, rfl, k1, k2⟩
    rintro m X ⟨hX, hl⟩
    unfold LoopCloses at hl
    rw [hc0, Iso.one_mul, hb, Iso.one_mul, hof] at hl
    exact ⟨hX, hl⟩
  · obtain ⟨hb, ho, hof⟩ := C164_second_run K' hK' seed cm tm 100 ms r' hr2
    obtain ⟨preds, pm, pd, am, ad, hp, hst, k1, k2⟩ := C139_stats (kinExample_comparable hK' hr2 hm) hne rd'' rd'''
    rw [show (kinExampleProblem seed cm tm (allMask (twoAxisPositioner seed).dof)).cameraChain = ⟨[], 1⟩ from rfl,
      show (kinExampleProblem seed cm tm (allMask (twoAxisPositioner seed).dof)).targetChain = twoAxisPositioner seed from rfl,
      hst] at hs2
    cases hs2
    refine ⟨preds, pm, pd, am, ad, hp.imp ?_, rfl, k1, k2⟩
    rintro m X ⟨hX, hl⟩
    unfold LoopCloses at hl
    rw [hc0, Iso.one_mul, hb, Iso.one_mul, hof] at hl
    exact ⟨hX, hl⟩

theorem kinExampleRun_returns {K : KCeres} (hK : K.WF) {seed : Nat} {cm tm : Iso} {mask : List Int} (hmask : IsExampleMask mask)
    {ms : List KinMeas} (hm : ExampleMeas ms) (hne : ms ≠ []) (rd rd' : Nat → Nat)
    (hcov : ∀ blocks pb st l, (K.run blocks).covCompute pb st l = .ok true ∧ ((K.run blocks).covMatrix pb st l).isSome) :
    ∃ r st, kinExampleRun K rd rd' (kinExampleProblem seed cm tm mask) ms = .ok (r, st) := by
  obtain ⟨r, hr⟩ : ∃ r, kinematic6 K (kinExampleProblem seed cm tm mask) 100 ms = .ok r := by
    refine C46_accepts K hK _ (kinExample_sane hmask) _ (by simpa using hne) (fun a => kinExample_masks hmask a) ?_ hcov
    intro f hf
    obtain ⟨m, hmm, rfl⟩ := List.mem_map.1 hf
    obtain ⟨e1, e2, -⟩ := hm m hmm
    simp only [kinCost6]
    rw [kinCameraToTarget_eq, if_pos ⟨by rw [e1]; simp, e2⟩]
    exact ⟨_, rfl⟩
  obtain ⟨_, pm, pd, am, ad, _, hst, -⟩ := C139_stats (kinExample_comparable hK hr hm) hne rd rd'
  refine ⟨r, ⟨some pm, some pd, some am, some ad⟩, ?_⟩
  unfold kinExampleRun
  rw [hr, Res.ok_bind]
  exact (Res.bind_ok_iff _ _ _).2 ⟨_, hst, rfl⟩

/-- The example completes both runs and comparisons if the covariance can be computed. Missing: measurements with joints of
the camera, no measurements. -/
theorem C164_partial (K K' : KCeres) (hK : K.WF) (hK' : K'.WF) (rd rd' rd'' rd''' : Nat → Nat) (seed : Nat) (cm tm : Iso)
    (ms : List KinMeas) (hm : ExampleMeas ms) (hne : ms ≠ [])
    (hcov : ∀ blocks pb st l, (K.run blocks).covCompute pb st l = .ok true ∧ ((K.run blocks).covMatrix pb st l).isSome)
    (hcov' : ∀ blocks pb st l, (K'.run blocks).covCompute pb st l = .ok true ∧ ((K'.run blocks).covMatrix pb st l).isSome) :
    ∃ res, kinExampleMain K K' rd rd' rd'' rd''' seed cm tm ms = .ok res := by
  obtain ⟨r, st, h⟩ := kinExampleRun_returns (seed := seed) (cm := cm) (tm := tm) hK (.inl rfl) hm hne rd rd' hcov
  obtain ⟨r', st', h'⟩ := kinExampleRun_returns (seed := seed) (cm := cm) (tm := tm) hK' (.inr rfl) hm hne rd'' rd''' hcov'
  unfold kinExampleMain
  rw [positioner_dof, h, Res.ok_bind, h', Res.ok_bind]
  exact ⟨_, rfl⟩

/-- A measurement with joints of the camera, which the file format provides for, or with more than two joints of the target:
the example does not complete. -/
theorem C164_negation (K K' : KCeres) (rd rd' rd'' rd''' : Nat → Nat) (seed : Nat) (cm tm : Iso) (ms : List KinMeas) (m : KinMeas)
    (hm : m ∈ ms) (hj : m.cameraJoints ≠ [] ∨ 2 < m.targetJoints.length) (res : (KinResult × KinStats) × (KinResult × KinStats)) :
    kinExampleMain K K' rd rd' rd'' rd''' seed cm tm ms ≠ .ok res := by
  intro h
  unfold kinExampleMain kinExampleRun kinematic6 kinOptimize at h
  simp only [Res.bind_ok_iff] at h
  obtain ⟨a, ⟨r, hr, -⟩, -⟩ := h
  split at hr
  · cases hr
  · simp only [Res.bind_ok_iff] at hr
    obtain ⟨-, -, -, -, -, -, -, -, l, hl, -⟩ := hr
    rw [Res.mapList_ok_iff] at hl
    have hmem : kinCost6 ⟨[], 1⟩ (twoAxisPositioner seed) 100 m ∈
        ms.map fun m => kinCost6 ⟨[], 1⟩ (twoAxisPositioner seed) 100 m := List.mem_map.2 ⟨m, hm, rfl⟩
    obtain ⟨x, -, hx⟩ := Forall₂.mem_left hl hmem
    simp only [kinCost6] at hx
    rw [kinCameraToTarget_eq, if_neg] at hx
    · cases hx
    · rintro ⟨h1, h2⟩
      rcases hj with h | h
      · exact h (by simpa [DHChain.dof] using h1)
      · rw [positioner_dof] at h2; omega

/-- Without measurements the process is aborted inside the solver library. -/
theorem C164_negation_empty (K K' : KCeres) (rd rd' rd'' rd''' : Nat → Nat) (seed : Nat) (cm tm : Iso) :
    kinExampleMain K K' rd rd' rd'' rd''' seed cm tm [] = .abort := by
  unfold kinExampleMain kinExampleRun kinematic6 kinOptimize
  rw [if_pos ⟨.inl rfl, rfl⟩]
  rfl

/-- The report of both runs contains a standard deviation for a parameter that does not exist, the offset of a joint of the
camera chain. -/
theorem C164_placeholder (K : KCeres) (hK : K.WF) (seed : Nat) (cm tm : Iso) (mask : List Int) (hmask : IsExampleMask mask)
    (ms : List KinMeas) (r : KinResult) (h : kinematic6 K (kinExampleProblem seed cm tm mask) 100 ms = .ok r) :
    ∃ sd ∈ r.covariance.standard_deviations, sd.first = "camera_chain_placeholder_d" :=
  C94_negation K hK _ (kinExample_sane hmask) _ r h rfl rfl

/-- Non-vacuity: two measurements with different joints meet the hypotheses of `C164_partial` (and its result those of the
other theorems). -/
example (seed : Nat) (cm tm : Iso) (rd : Nat → Nat) : ∃ ms : List KinMeas, ExampleMeas ms ∧ ms ≠ [] ∧
    ∃ res, kinExampleMain idKCeres idKCeres rd rd rd rd seed cm tm ms = .ok res := by
  have hr : RigidMotion (⟨1, ⟨1, 2, 3⟩⟩ : Iso) := (rigid_iff _).1 (M3.IsRot.one)
  have hm : ExampleMeas [⟨1, [], [1, 2]⟩, ⟨⟨1, ⟨1, 2, 3⟩⟩, [], [-1, 1 / 2]⟩] := by
    intro m hm
    simp only [List.mem_cons, List.not_mem_nil, or_false] at hm
    rcases hm with rfl | rfl
    · exact ⟨rfl, by simp, Representable.one.1⟩
    · exact ⟨rfl, by simp, hr⟩
  exact ⟨_, hm, by simp, C164_partial idKCeres idKCeres idKCeres_wf idKCeres_wf rd rd rd rd seed cm tm _ hm (by simp)
    (fun _ _ _ _ => ⟨rfl, rfl⟩) (fun _ _ _ _ => ⟨rfl, rfl⟩)⟩

end RCT
