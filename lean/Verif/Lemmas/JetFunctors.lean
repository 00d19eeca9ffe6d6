import Verif.Lemmas.Jet
import Verif.Lemmas.Pose

/-!
# The functors at `T = Jet` describe the functors at `T = double`
-/

namespace RCT

open Spec Filter Topology

/-- Sums, differences and products of described functions. -/
macro "tan" : tactic => `(tactic| repeat' first
  | assumption
  | exact Spec.Tan.const _ _
  | exact Spec.Tan.sin (by assumption)
  | exact Spec.Tan.cos (by assumption)
  | apply Spec.Tan.add
  | apply Spec.Tan.sub
  | apply Spec.Tan.mul
  | apply Spec.Tan.neg)

structure TanM3 (f : ℝ → M3) (s : ℝ) (j : JM3) : Prop where
  m00 : Tan (fun u => (f u).m00) s j.m00
  m01 : Tan (fun u => (f u).m01) s j.m01
  m02 : Tan (fun u => (f u).m02) s j.m02
  m10 : Tan (fun u => (f u).m10) s j.m10
  m11 : Tan (fun u => (f u).m11) s j.m11
  m12 : Tan (fun u => (f u).m12) s j.m12
  m20 : Tan (fun u => (f u).m20) s j.m20
  m21 : Tan (fun u => (f u).m21) s j.m21
  m22 : Tan (fun u => (f u).m22) s j.m22

structure TanIso (f : ℝ → Iso) (s : ℝ) (j : JIso) : Prop where
  R : TanM3 (fun u => (f u).R) s j.R
  t : TanV3 (fun u => (f u).t) s j.t

structure TanV2 (f : ℝ → V2) (s : ℝ) (j : JV2) : Prop where
  x : Tan (fun u => (f u).x) s j.x
  y : Tan (fun u => (f u).y) s j.y

variable {s : ℝ}

namespace Spec.TanV3
variable {f g : ℝ → V3} {i j : JV3}

theorem const (p : V3) : TanV3 (fun _ => p) s (.const p) := ⟨.const _ _, .const _ _, .const _ _⟩

theorem congr (h : TanV3 f s j) (he : g =ᶠ[𝓝 s] f) : TanV3 g s j :=
  ⟨h.x.congr (he.mono fun u hu => by simp only [hu]), h.y.congr (he.mono fun u hu => by simp only [hu]),
    h.z.congr (he.mono fun u hu => by simp only [hu])⟩

theorem dot (hf : TanV3 f s i) (hg : TanV3 g s j) : Tan (fun u => (f u).dot (g u)) s (i.dot j) := by
  obtain ⟨h1, h2, h3⟩ := hf
  obtain ⟨h4, h5, h6⟩ := hg
  unfold V3.dot JV3.dot
  tan

theorem cross (hf : TanV3 f s i) (hg : TanV3 g s j) : TanV3 (fun u => (f u).cross (g u)) s (i.cross j) := by
  obtain ⟨h1, h2, h3⟩ := hf
  obtain ⟨h4, h5, h6⟩ := hg
  unfold V3.cross JV3.cross
  constructor <;> dsimp only <;> tan

theorem add (hf : TanV3 f s i) (hg : TanV3 g s j) : TanV3 (fun u => f u + g u) s (i.add j) :=
  ⟨hf.x.add hg.x, hf.y.add hg.y, hf.z.add hg.z⟩

theorem neg (hf : TanV3 f s i) : TanV3 (fun u => -f u) s i.neg := ⟨hf.x.neg, hf.y.neg, hf.z.neg⟩

theorem norm (hf : TanV3 f s i) : Tan (fun u => (f u).norm) s i.norm := (hf.dot hf).sqrt

/-- Away from the zero vector. -/
theorem normalized (hf : TanV3 f s i) (h0 : 0 < (i.dot i).a) : TanV3 (fun u => (f u).normalized) s i.normalized := by
  have hn : i.norm.a ≠ 0 := (Real.sqrt_pos.2 h0).ne'
  have hj : i.normalized = ⟨i.x / i.norm, i.y / i.norm, i.z / i.norm⟩ := by
    unfold JV3.normalized; rw [if_pos h0]
  have he : (fun u => (f u).normalized) =ᶠ[𝓝 s]
      fun u => (⟨(f u).x / (f u).norm, (f u).y / (f u).norm, (f u).z / (f u).norm⟩ : V3) := by
    refine ((hf.dot hf).eventually_gt h0).mono fun u hu => ?_
    dsimp only
    unfold V3.normalized
    rw [if_pos (show (f u).normSq > 0 from hu)]
    ext <;> simp [div_eq_inv_mul]
  rw [hj]
  exact TanV3.congr ⟨hf.x.div hf.norm hn, hf.y.div hf.norm hn, hf.z.div hf.norm hn⟩ he

end Spec.TanV3

namespace TanM3
variable {f g : ℝ → M3} {i j : JM3}

theorem const (m : M3) : TanM3 (fun _ => m) s (.const m) := by constructor <;> exact .const _ _

theorem tr (hf : TanM3 f s i) : TanM3 (fun u => (f u).tr) s i.tr :=
  ⟨hf.m00, hf.m10, hf.m20, hf.m01, hf.m11, hf.m21, hf.m02, hf.m12, hf.m22⟩

theorem mul (hf : TanM3 f s i) (hg : TanM3 g s j) : TanM3 (fun u => f u * g u) s (i.mul j) := by
  obtain ⟨a00, a01, a02, a10, a11, a12, a20, a21, a22⟩ := hf
  obtain ⟨b00, b01, b02, b10, b11, b12, b20, b21, b22⟩ := hg
  constructor <;> simp only [M3.mul_def, JM3.mul] <;> tan

theorem mulVec (hf : TanM3 f s i) {g : ℝ → V3} {j : JV3} (hg : TanV3 g s j) :
    TanV3 (fun u => (f u).mulVec (g u)) s (i.mulVec j) := by
  obtain ⟨a00, a01, a02, a10, a11, a12, a20, a21, a22⟩ := hf
  obtain ⟨h4, h5, h6⟩ := hg
  constructor <;> simp only [M3.mulVec, JM3.mulVec] <;> tan

theorem trace (hf : TanM3 f s i) : Tan (fun u => (f u).trace) s i.trace := (hf.m00.add hf.m11).add hf.m22

theorem ofAngleAxis {a : ℝ → ℝ} {ja : Jet} {w : ℝ → V3} {jw : JV3} (ha : Tan a s ja) (hw : TanV3 w s jw) :
    TanM3 (fun u => (AngleAxis.mk (a u) (w u)).toMat) s (.ofAngleAxis ja jw) := by
  obtain ⟨h1, h2, h3⟩ := hw
  have hc := ha.cos
  have hs := ha.sin
  have one : Tan (fun _ => (1 : ℝ)) s 1 := .const 1 s
  constructor <;> simp only [AngleAxis.toMat, JM3.ofAngleAxis] <;> tan

end TanM3

namespace TanIso
variable {f g : ℝ → Iso} {i j : JIso}

theorem const (T : Iso) : TanIso (fun _ => T) s (.const T) := ⟨.const _, .const _⟩

theorem mul (hf : TanIso f s i) (hg : TanIso g s j) : TanIso (fun u => f u * g u) s (i.mul j) :=
  ⟨hf.R.mul hg.R, (hf.R.mulVec hg.t).add hf.t⟩

theorem inv (hf : TanIso f s i) : TanIso (fun u => (f u).inv) s i.inv :=
  ⟨hf.R.tr, (hf.R.tr.mulVec hf.t).neg⟩

theorem apply (hf : TanIso f s i) {g : ℝ → V3} {j : JV3} (hg : TanV3 g s j) :
    TanV3 (fun u => (f u).apply (g u)) s (i.apply j) := (hf.R.mulVec hg).add hf.t

theorem congr (h : TanIso f s j) (he : g =ᶠ[𝓝 s] f) : TanIso g s j := by
  obtain ⟨⟨a00, a01, a02, a10, a11, a12, a20, a21, a22⟩, h2⟩ := h
  refine ⟨⟨a00.congr ?_, a01.congr ?_, a02.congr ?_, a10.congr ?_, a11.congr ?_, a12.congr ?_, a20.congr ?_, a21.congr ?_,
    a22.congr ?_⟩, h2.congr ?_⟩ <;> exact he.mono fun u hu => by simp only [hu]

end TanIso

/-! ## Projection and rotation -/

/-- Depth not zero. -/
theorem projectPointJ_tan (intr : Intr) {f : ℝ → V3} {j : JV3} (h : TanV3 f s j) (h0 : j.z.a ≠ 0) :
    TanV2 (fun u => projectPoint intr (f u)) s (projectPointJ intr j) := by
  have hz : ∀ᶠ u in 𝓝 s, (f u).z ≠ 0 := by
    have := h.z.cont.eventually_ne (y := 0) (by rw [h.z.val]; exact h0)
    exact this
  unfold projectPointJ projectPoint
  simp only [if_neg h0]
  constructor
  · refine Tan.congr ((Tan.mul (.const _ _) (h.x.div h.z h0)).add (.const _ _)) (hz.mono fun u hu => ?_)
    simp [hu]
  · refine Tan.congr ((Tan.mul (.const _ _) (h.y.div h.z h0)).add (.const _ _)) (hz.mono fun u hu => ?_)
    simp [hu]

/-- Depth not at the threshold of the other overload. -/
theorem projectPointEJ_tan (intr : Intr) {f : ℝ → V3} {j : JV3} (h : TanV3 f s j) (h0 : j.z.a ≠ 1 / 10 ^ 10) :
    TanV2 (fun u => projectPointE intr (f u)) s (projectPointEJ intr j) := by
  have one : Tan (fun _ => (1 : ℝ)) s 1 := .const 1 s
  have hK := TanM3.const (s := s) (⟨intr.fx, 0, intr.cx, 0, intr.fy, intr.cy, 0, 0, 1⟩ : M3)
  rcases lt_or_gt_of_ne h0 with h1 | h1
  · have hev := h.z.eventually_lt h1
    have h3 : TanV3 (fun u => ⟨(f u).x, (f u).y, 1⟩) s ⟨j.x, j.y, 1⟩ := ⟨h.x, h.y, one⟩
    have h4 := hK.mulVec h3
    unfold projectPointEJ projectPointE
    simp only [if_neg (not_lt.2 h1.le), sub_zero]
    constructor
    · exact h4.x.congr (hev.mono fun u hu => by simp only [if_neg (not_lt.2 hu.le)])
    · exact h4.y.congr (hev.mono fun u hu => by simp only [if_neg (not_lt.2 hu.le)])
  · have hev := h.z.eventually_gt h1
    have hz : j.z.a ≠ 0 := by intro e; rw [e] at h1; norm_num at h1
    have h3 : TanV3 (fun u => ⟨(f u).x / (f u).z, (f u).y / (f u).z, 1⟩) s ⟨j.x / j.z, j.y / j.z, 1⟩ :=
      ⟨h.x.div h.z hz, h.y.div h.z hz, one⟩
    have h4 := hK.mulVec h3
    unfold projectPointEJ projectPointE
    simp only [if_pos h1, sub_zero]
    constructor
    · exact h4.x.congr (hev.mono fun u hu => by simp only [if_pos hu])
    · exact h4.y.congr (hev.mono fun u hu => by simp only [if_pos hu])

/-- Squared angle not at the threshold. -/
theorem angleAxisRotatePointJ_tan {aa pt : ℝ → V3} {ja jp : JV3} (ha : TanV3 aa s ja) (hp : TanV3 pt s jp)
    (h0 : (ja.dot ja).a ≠ dblEps) :
    TanV3 (fun u => angleAxisRotatePoint (aa u) (pt u)) s (angleAxisRotatePointJ ja jp) := by
  have hd := ha.dot ha
  have one : Tan (fun _ => (1 : ℝ)) s 1 := .const 1 s
  rcases lt_or_gt_of_ne h0 with h1 | h1
  · have hc := ha.cross hp
    have hj : angleAxisRotatePointJ ja jp = jp.add (ja.cross jp) := by
      unfold angleAxisRotatePointJ; rw [if_neg (not_lt.2 h1.le)]; rfl
    rw [hj]
    refine (hp.add hc).congr ((hd.eventually_lt h1).mono fun u hu => ?_)
    dsimp only
    unfold angleAxisRotatePoint
    rw [if_neg (not_lt.2 hu.le)]; rfl
  · have hpos : 0 < (ja.dot ja).a := lt_trans (by unfold dblEps; positivity) h1
    have hs0 : (ja.dot ja).sqrt.a ≠ 0 := (Real.sqrt_pos.2 hpos).ne'
    have hn := hd.sqrt
    have hi := one.div hn hs0
    have hw : TanV3 (fun u => V3.smul (1 / Real.sqrt ((aa u).dot (aa u))) (aa u)) s
        ⟨1 / (ja.dot ja).sqrt * ja.x, 1 / (ja.dot ja).sqrt * ja.y, 1 / (ja.dot ja).sqrt * ja.z⟩ :=
      ⟨hi.mul ha.x, hi.mul ha.y, hi.mul ha.z⟩
    have hx := hw.cross hp
    have htmp := (hw.dot hp).mul (one.sub hn.cos)
    have hj : angleAxisRotatePointJ ja jp =
        (let w : JV3 := ⟨1 / (ja.dot ja).sqrt * ja.x, 1 / (ja.dot ja).sqrt * ja.y, 1 / (ja.dot ja).sqrt * ja.z⟩
         let tmp := w.dot jp * (1 - (ja.dot ja).sqrt.cos)
         ⟨jp.x * (ja.dot ja).sqrt.cos + (w.cross jp).x * (ja.dot ja).sqrt.sin + w.x * tmp,
          jp.y * (ja.dot ja).sqrt.cos + (w.cross jp).y * (ja.dot ja).sqrt.sin + w.y * tmp,
          jp.z * (ja.dot ja).sqrt.cos + (w.cross jp).z * (ja.dot ja).sqrt.sin + w.z * tmp⟩) := by
      unfold angleAxisRotatePointJ; rw [if_pos h1]
    rw [hj]
    refine TanV3.congr
      ⟨((hp.x.mul hn.cos).add (hx.x.mul hn.sin)).add (hw.x.mul htmp),
       ((hp.y.mul hn.cos).add (hx.y.mul hn.sin)).add (hw.y.mul htmp),
       ((hp.z.mul hn.cos).add (hx.z.mul hn.sin)).add (hw.z.mul htmp)⟩
      (g := fun u => angleAxisRotatePoint (aa u) (pt u)) (f := fun u => ⟨_, _, _⟩) ?_
    refine (hd.eventually_gt h1).mono fun u hu => ?_
    dsimp only
    unfold angleAxisRotatePoint
    rw [if_pos hu]

theorem transformPointJ_tan {aa tx pt : ℝ → V3} {ja jt jp : JV3} (ha : TanV3 aa s ja) (ht : TanV3 tx s jt)
    (hp : TanV3 pt s jp) (h0 : (ja.dot ja).a ≠ dblEps) :
    TanV3 (fun u => transformPoint (aa u) (tx u) (pt u)) s (transformPointJ ja jt jp) :=
  (angleAxisRotatePointJ_tan ha hp h0).add ht

end RCT
