import Verif.Model.CircleDetector

/-!
# Specification of the circle detector
-/

namespace RCT.Spec

open RCT

/-- Two circles agree within a distance `r` of their centres and a difference `d` of their radii. -/
def SameCircle (r d : ℝ) (a b : Center) : Prop :=
  0 ≤ r ∧ (a.location.x - b.location.x) ^ 2 + (a.location.y - b.location.y) ^ 2 ≤ r ^ 2 ∧ |a.radius - b.radius| ≤ d

/-- Two circles are farther apart than twice the tolerances. -/
def FarApart (r d : ℝ) (a b : Center) : Prop :=
  (2 * r) ^ 2 < (a.location.x - b.location.x) ^ 2 + (a.location.y - b.location.y) ^ 2 ∨ 2 * d < |a.radius - b.radius|

/-- `groups` is a division of `all` into groups around their first members. -/
structure Grouping {α : Type} (same : α → α → Prop) (all : List α) (groups : List (List α)) : Prop where
  /-- every detection occurs in exactly one group, as often as it was detected -/
  perm : groups.flatten.Perm all
  /-- groups keep the order of detection -/
  order : ∀ g ∈ groups, g.Sublist all
  nonempty : ∀ g ∈ groups, g ≠ []
  close : ∀ f g, f :: g ∈ groups → ∀ c ∈ g, same f c
  apart : ∀ (i j : Nat) f g f' g', i < j → groups[i]? = some (f :: g) → groups[j]? = some (f' :: g') → ¬ same f f'

/-- A value in a half-open range. -/
def InRange (lo hi x : ℝ) : Prop := lo ≤ x ∧ x < hi

/-- The point lies on the ellipse with the given centre, axes `width`, `height` and rotation (degrees). -/
def OnEllipse (box : RotRect) (p : PixelPt) : Prop :=
  ∃ φ : ℝ, (p.x : ℝ) - box.center.x =
      box.width / 2 * Real.cos φ * Real.cos (box.angle * Real.pi / 180)
        - box.height / 2 * Real.sin φ * Real.sin (box.angle * Real.pi / 180) ∧
    (p.y : ℝ) - box.center.y =
      box.width / 2 * Real.cos φ * Real.sin (box.angle * Real.pi / 180)
        + box.height / 2 * Real.sin φ * Real.cos (box.angle * Real.pi / 180)

/-- The pixel of the binary image is white exactly if its grey value exceeds the threshold. -/
def Colour (w : ImageOps) (threshold : ℝ) (row col : Nat) (c : Nat) : Prop :=
  (threshold < w.px row col ∧ c = 255) ∨ (¬ threshold < w.px row col ∧ c = 0)

/-- The contour meets all requirements of the parameters. -/
structure Accepted (w : ImageOps) (p : DetectorParams) (threshold : ℝ) (contour : List PixelPt) : Prop where
  points : 5 ≤ contour.length
  area : p.filterByArea = true → InRange p.minArea p.maxArea (w.moments contour).m00
  circularity : p.filterByCircularity = true →
    InRange p.minCircularity p.maxCircularity (4 * Real.pi * (w.moments contour).m00 / w.arcLength contour ^ 2)
  inertia : p.filterByInertia = true → ∃ q, inertiaRatio (w.moments contour) = .fin q ∧
    InRange p.minInertiaRatio p.maxInertiaRatio q
  convexity : p.filterByConvexity = true →
    InRange p.minConvexity p.maxConvexity (w.contourArea contour / w.contourArea (w.convexHull contour))
  colour : p.filterByColor = true → ∃ row col : Nat, w.cvRound (w.fitEllipse contour).center.x = col ∧
    w.cvRound (w.fitEllipse contour).center.y = row ∧ row < w.rows ∧ col < w.cols ∧
    Colour w threshold row col p.circleColor
  ellipse : |(contour.map (ellipseValue (w.fitEllipse contour))).sum / contour.length - 1| < p.maxAverageEllipseError

end RCT.Spec
