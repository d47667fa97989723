/-
What the batch scripts are to deliver, independent of the way in which they go through a directory.
-/
import Verif.Model.Batch

set_option linter.unusedSectionVars false

namespace Rose.Spec

open Rose

variable {K : Type} [Field K] [LinearOrder K]

/-- The probability of the scenario of a result as a fraction (0 for a scenario without soil data). -/
def chance (sos : SosFile K) (f : ResultFile K) : K :=
  match sos.get? f.segment with
  | none => 0
  | some scenarios =>
    match scenarios.get? f.scenario with
    | none => 0
    | some s => s.probability / 100

/-- The results of a segment. -/
def ofSegment (segment : Name) (fs : List (ResultFile K)) : List (ResultFile K) := fs.filter fun f => f.segment = segment

/-- The values of results, weighted with the probabilities of their scenarios. -/
def weightedSum (sos : SosFile K) (fs : List (ResultFile K)) : K := (fs.map fun f => f.value * chance sos f).sum

/-- The results of the segment are listed one after the other. -/
def Contiguous (segment : Name) (fs : List (ResultFile K)) : Prop := ofSegment segment fs <:+: fs

/-- The last uninterrupted run of results of the segment. -/
def lastRun (segment : Name) (fs : List (ResultFile K)) : List (ResultFile K) :=
  ((fs.reverse.dropWhile fun f => f.segment ≠ segment).takeWhile fun f => f.segment = segment).reverse

/-- The segments in the order in which they first appear. -/
def firstAppearance : List Name → List Name
  | [] => []
  | a :: as => a :: (firstAppearance as).filter fun b => b ≠ a

end Rose.Spec
