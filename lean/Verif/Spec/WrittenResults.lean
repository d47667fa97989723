/-
Specification of the order of the rows in the result files: sleepers are counted segment by segment.
-/
import Verif.Spec.Motion
import Verif.Model.WrittenResults

namespace Rose.Spec

/-- A value per segment, listed once for each sleeper of the segment. -/
def perSleeper {α : Type*} (counts : List ℕ) (a : ℕ → α) : List α :=
  (List.range counts.length).flatMap fun k => List.replicate (counts.getD k 0) (a k)

/-- The x coordinates of the sleepers: the `r`-th rail nodes of a segment, with rail nodes at the distance `l`; each segment has `r` rail nodes
per sleeper and there are `r - 1` more between two segments. -/
noncomputable def sleeperPlaces (r : ℕ) (l : ℝ) (counts : List ℕ) : List ℝ :=
  (List.range counts.length).flatMap fun k => (List.range (counts.getD k 0)).map fun i =>
    (((counts.take k).sum * r + k * (r - 1) + i * r : ℕ) : ℝ) * l

/-- The vertical displacements of node `i` in all results. -/
def vertical {K : Type*} [Field K] [LinearOrder K] [IsStrictOrderedRing K] (rows : List (List (NodeRow K))) (i : ℕ) : List K :=
  rows.map fun row => fieldOfRows row NodeRow.displacement i 1

/-- The largest absolute value of a history. -/
def peak {K : Type*} [Field K] [LinearOrder K] [IsStrictOrderedRing K] (xs : List K) : K := xs.foldr (fun x m => max |x| m) 0

/-- Every `interval`-th entry, from the first. -/
def every {α : Type*} (interval : ℕ) (xs : List α) : List α := (xs.zipIdx.filter fun e => e.2 % interval = 0).map Prod.fst

/-- What the entries of the result file about displacements, places and soil should be, for a track `c` of segments with `counts` sleepers, `r`
rail nodes per sleeper and `N` rail nodes at the distance `l`; `stiffness k` is the stiffness of the soil of segment `k`. The rail nodes are listed from left to right; rail pads and
soil springs sleeper by sleeper, each with its upper and its lower node; the lower node of a soil spring does not move; the force in a soil
spring is the stiffness of the soil of the segment times the vertical displacement of the sleeper. -/
structure TrackFile {ι : Type*} [DecidableEq ι] (c : CombinedTrack ι ℝ) (r N : ℕ) (l : ℝ) (counts : List ℕ) (stiffness : ℕ → ℝ)
    (rows : List (List (NodeRow ℝ))) (w : WrittenTrack ℝ) : Prop where
  railCoords : w.railCoords = (List.range N).map fun i : ℕ => (i : ℝ) * l
  railDisplacements : w.railDisplacements = c.rail.map fun x => vertical rows (c.meshNodes.idxOf x)
  padCoords : w.padCoords = (sleeperPlaces r l counts).flatMap fun x => [x, x]
  padDisplacements : w.padDisplacements =
    c.pads.flatMap fun e => [vertical rows (c.meshNodes.idxOf e.1), vertical rows (c.meshNodes.idxOf e.2)]
  padEnds : c.pads.map Prod.snd = c.sleepers
  sleeperDisplacements : w.sleeperDisplacements = c.sleepers.map fun x => vertical rows (c.meshNodes.idxOf x)
  soilCoords : w.soilCoords = (sleeperPlaces r l counts).flatMap fun x => [x, x]
  soilDisplacements : w.soilDisplacements = c.sleepers.flatMap fun x => [vertical rows (c.meshNodes.idxOf x), rows.map fun _ => 0]
  soilId : w.soilId = perSleeper counts id
  soilForces : w.soilForces = ((perSleeper counts stiffness).zip c.sleepers).map fun p =>
    rows.map fun row => p.1 * fieldOfRows row NodeRow.displacement (c.meshNodes.idxOf p.2) 1

end Rose.Spec
