import Verif.Model.Plugins

/-!
# Specification of the target plugins and of the equality of targets
-/

namespace RCT.Spec

open RCT

/-- The node is a map in which the key has the scalar `s`. -/
def HasScalar (n : Yaml) (k : String) (s : YScalar) : Prop := ∃ l, n = .map l ∧ l.lookup k = some (.scalar s)

def HasReal (n : Yaml) (k : String) (x : ℝ) : Prop := ∃ s, HasScalar n k s ∧ s.num = some (some x)
def HasFlag (n : Yaml) (k : String) (b : Bool) : Prop := ∃ s, HasScalar n k s ∧ s.bool = some b
def HasInt (C : YInts) (n : Yaml) (k : String) (i : Int) : Prop := ∃ s, HasScalar n k s ∧ C.int s = some i
def HasSize (C : YInts) (n : Yaml) (k : String) (i : Nat) : Prop := ∃ s, HasScalar n k s ∧ C.size s = some i

/-- The node states all parameters of the circle detector, with the values `p`. -/
structure DetectorBlock (C : YInts) (n : Yaml) (p : DetectorParams) : Prop where
  minThreshold : HasReal n "minThreshold" p.minThreshold
  maxThreshold : HasReal n "maxThreshold" p.maxThreshold
  nThresholds : HasSize C n "nThresholds" p.nThresholds
  minRepeatability : HasSize C n "minRepeatability" p.minRepeatability
  circleInclusionRadius : HasReal n "circleInclusionRadius" p.circleInclusionRadius
  maxRadiusDiff : HasReal n "maxRadiusDiff" p.maxRadiusDiff
  maxAverageEllipseError : HasReal n "maxAverageEllipseError" p.maxAverageEllipseError
  filterByColor : HasFlag n "filterByColor" p.filterByColor
  circleColor : HasInt C n "circleColor" p.circleColor
  filterByArea : HasFlag n "filterByArea" p.filterByArea
  minArea : HasReal n "minArea" p.minArea
  maxArea : HasReal n "maxArea" p.maxArea
  filterByCircularity : HasFlag n "filterByCircularity" p.filterByCircularity
  minCircularity : HasReal n "minCircularity" p.minCircularity
  maxCircularity : HasReal n "maxCircularity" p.maxCircularity
  filterByInertia : HasFlag n "filterByInertia" p.filterByInertia
  minInertiaRatio : HasReal n "minInertiaRatio" p.minInertiaRatio
  maxInertiaRatio : HasReal n "maxInertiaRatio" p.maxInertiaRatio
  filterByConvexity : HasFlag n "filterByConvexity" p.filterByConvexity
  minConvexity : HasReal n "minConvexity" p.minConvexity
  maxConvexity : HasReal n "maxConvexity" p.maxConvexity

/-- The names of the parameters. -/
def detectorKeys : List String :=
  ["minThreshold", "maxThreshold", "nThresholds", "minRepeatability", "circleInclusionRadius", "maxRadiusDiff",
   "maxAverageEllipseError", "filterByColor", "circleColor", "filterByArea", "minArea", "maxArea", "filterByCircularity",
   "minCircularity", "maxCircularity", "filterByInertia", "minInertiaRatio", "maxInertiaRatio", "filterByConvexity",
   "minConvexity", "maxConvexity"]

/-- The configuration states rows, columns and spacing of the circle grid. -/
structure CircleConfig (C : YInts) (n : Yaml) (rows cols : Int) (spacing : ℝ) : Prop where
  rows : HasInt C n "rows" rows
  cols : HasInt C n "cols" cols
  spacing : HasReal n "spacing" spacing

/-- The marker `i` with corners `us` is the first detection with its id. -/
def FirstDetection {α : Type} (ids : List Int) (corners : List α) (i : Int) (us : α) : Prop :=
  ∃ n : Nat, ids[n]? = some i ∧ (∀ b : Nat, b < n → ids[b]? ≠ some i) ∧ corners[n]? = some us

end RCT.Spec
