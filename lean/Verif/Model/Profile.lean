/-
Model of the profile along the track: `rose/post_processing/plot_profile.py`. The figure itself (axes, colours, file) is not
modelled; the model gives the data handed to `ax.plot` and `ax.fill_between` for one entry of `data_list`.
-/
import Verif.Model.Assembly
import Mathlib.Analysis.SpecialFunctions.Sqrt

set_option linter.unusedSectionVars false

namespace Rose

/-- `compute_distance`, `rose/post_processing/plot_profile.py:16-17`. Coordinates have two components. -/
noncomputable def computeDistance (p q : ℝ × ℝ) : ℝ := Real.sqrt ((p.1 - q.1) ^ 2 + (p.2 - q.2) ^ 2)

/-- Sums `a, a + x0, a + x0 + x1, ..`: `np.concatenate([[0], np.cumsum(xs)])` for `a = 0`,
`rose/post_processing/plot_profile.py:28-30`. -/
noncomputable def sumsFrom (a : ℝ) : List ℝ → List ℝ
  | [] => [a]
  | x :: xs => a :: sumsFrom (a + x) xs

/-- `compute_cumulative_distance`, `rose/post_processing/plot_profile.py:19-32`. Without coordinates `diffs[:, 0]` raises. -/
noncomputable def cumulativeDistance (coords : List (ℝ × ℝ)) : Except Err (List ℝ) :=
  if coords = [] then .error .indexError
  else .ok (sumsFrom 0 (List.zipWith (fun q p => Real.sqrt ((q.1 - p.1) ^ 2 + (q.2 - p.2) ^ 2)) coords.tail coords))

/-- `np.average(values, weights=weights)` for as many weights as values, `rose/post_processing/plot_profile.py:43-44`. Raises
`ZeroDivisionError` (`exception`) if the weights sum to zero. -/
noncomputable def npAverage (vw : List (ℝ × ℝ)) : Except Err ℝ :=
  if (vw.map Prod.snd).sum = 0 then .error .exception
  else .ok ((vw.map fun x => x.1 * x.2).sum / (vw.map Prod.snd).sum)

/-- `weighted_avg_and_std`, `rose/post_processing/plot_profile.py:34-46`; the pairs are (value, weight). -/
noncomputable def weightedAvgStd (vw : List (ℝ × ℝ)) : Except Err (ℝ × ℝ) :=
  match npAverage vw with
  | .error e => .error e
  | .ok a =>
    match npAverage (vw.map fun x => ((x.1 - a) ^ 2, x.2)) with
    | .error e => .error e
    | .ok v => .ok (a, Real.sqrt v)

/-- `argmin` of a non-empty list: smallest value and index of its first occurrence, `rose/post_processing/plot_profile.py:51, 86, 120`. -/
noncomputable def argminList : ℝ → List ℝ → ℝ × ℕ
  | x, [] => (x, 0)
  | x, y :: ys => open Classical in
    let r := argminList y ys
    if x ≤ r.1 then (x, 0) else (r.1, r.2 + 1)

/-- `find_nearest`: value and index, `rose/post_processing/plot_profile.py:49-52`. `argmin` of nothing raises. -/
noncomputable def findNearest (array : List ℝ) (value : ℝ) : Except Err (ℝ × ℕ) :=
  match array.map fun x => |x - value| with
  | [] => .error .valueError
  | d :: ds => .ok (array.getD (argminList d ds).2 0, (argminList d ds).2)

/-- A segment of the track: values per time step and probability of each scenario, and coordinates,
`rose/post_processing/plot_profile.py:94-104`. -/
structure ProfileSegment where
  scenarios : List (List ℝ × ℝ)
  coords : List (ℝ × ℝ)

/-- `mean_val` and `prob_val` of a segment, `rose/post_processing/plot_profile.py:95-99`. A scenario without a value at the time index
raises. -/
def segmentValues (scenarios : List (List ℝ × ℝ)) (k : ℕ) : Except Err (List (ℝ × ℝ)) :=
  match scenarios with
  | [] => .ok []
  | s :: rest =>
    match s.1[k]?, segmentValues rest k with
    | some v, .ok vs => .ok ((v, s.2) :: vs)
    | some _, .error e => .error e
    | none, _ => .error .indexError

/-- Which ends are joined, `rose/post_processing/plot_profile.py:110-120`: the first smallest of the four distances. The code takes the
second point (`seg_coords[1]`) for the last one; a segment of fewer than two points raises. -/
noncomputable def closestIdx (coords seg : List (ℝ × ℝ)) : Except Err ℕ :=
  match coords.head?, coords.getLast? with
  | some first, some last =>
    match seg[0]?, seg[1]? with
    | some s0, some s1 =>
      .ok (argminList (computeDistance s0 first) [computeDistance s0 last, computeDistance s1 first, computeDistance s1 last]).2
    | _, _ => .error .indexError
  | _, _ => .ok 0

/-- Coordinates after adding a segment, `rose/post_processing/plot_profile.py:122-131`. -/
def joinCoords (i : ℕ) (coords seg : List (ℝ × ℝ)) : List (ℝ × ℝ) :=
  if i = 0 then coords.reverse ++ seg
  else if i = 1 then coords ++ seg
  else if i = 2 then coords.reverse ++ seg.reverse
  else coords ++ seg.reverse

/-- The lists built while going through the segments, `rose/post_processing/plot_profile.py:88-92`. -/
structure Profile where
  mean : List ℝ
  std : List ℝ
  coords : List (ℝ × ℝ)

/-- One pass of the loop over the segments, `rose/post_processing/plot_profile.py:94-131`. -/
noncomputable def Profile.add (k : ℕ) (p : Profile) (s : ProfileSegment) : Except Err Profile :=
  match segmentValues s.scenarios k with
  | .error e => .error e
  | .ok vw =>
    match weightedAvgStd vw with
    | .error e => .error e
    | .ok res =>
      match closestIdx p.coords s.coords with
      | .error e => .error e
      | .ok i => .ok ⟨p.mean ++ List.replicate s.coords.length res.1, p.std ++ List.replicate s.coords.length res.2,
          joinCoords i p.coords s.coords⟩

/-- The loop over the segments, `rose/post_processing/plot_profile.py:94-131`. -/
noncomputable def Profile.addAll (k : ℕ) : Profile → List ProfileSegment → Except Err Profile
  | p, [] => .ok p
  | p, s :: rest =>
    match p.add k s with
    | .error e => .error e
    | .ok p' => p'.addAll k rest

/-- A drawn point: where it is on the track, distance, mean, and the two ends of the band,
`rose/post_processing/plot_profile.py:138-142`. -/
structure DrawnPoint where
  coord : ℝ × ℝ
  dist : ℝ
  mean : ℝ
  lower : ℝ
  upper : ℝ

/-- What is drawn for one entry of `data_list`, `rose/post_processing/plot_profile.py:84-142`. -/
noncomputable def plotProfile (times : List ℝ) (time fct : ℝ) (segs : List ProfileSegment) : Except Err (List DrawnPoint) :=
  match findNearest times time with
  | .error e => .error e
  | .ok (_, k) =>
    match Profile.addAll k ⟨[], [], []⟩ segs with
    | .error e => .error e
    | .ok p =>
      match cumulativeDistance p.coords with
      | .error e => .error e
      | .ok d => .ok ((List.range d.length).map fun (i : ℕ) =>
          ⟨p.coords.getD i 0, d.getD i 0, p.mean.getD i 0, p.mean.getD i 0 - fct * p.std.getD i 0, p.mean.getD i 0 + fct * p.std.getD i 0⟩)

end Rose
