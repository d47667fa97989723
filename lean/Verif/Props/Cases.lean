/-
Concrete cases that meet the hypotheses of theorems whose own files show none: C98, C104, C125_wheel_loads.
-/
import Verif.Props.Massless
import Verif.Props.LoadWork
import Verif.Props.CombinedTrack
import Verif.Props.WheelLoad

namespace Rose

open Spec

/-- C98_work_partial: a force of 3 at a quarter of an element of length 4. -/
example : nodalWork (localNodalLoads (0 : ℚ) 4 1 (2, 3, 0) ⟨0, 0⟩) 1 2 3 4 5 6 = loadWork 0 4 1 (2, 3, 0) 1 2 3 4 5 6 ∧
    loadWork (0 : ℚ) 4 1 (2, 3, 0) 1 2 3 4 5 6 = 403 / 32 := by
  refine ⟨C98_work_partial (by norm_num) 1 (2, 3, 0) (Or.inr rfl) ⟨0, 0⟩ 1 2 3 4 5 6, ?_⟩
  norm_num [loadWork, axialDisplacement, timoDeflection]

/-- The only equation of `springsInSeries` that is retained is that of the mass. -/
theorem springsInSeries_retained (i : ℕ) (d : Fin 3) (k o : ℕ) (hk : equationOf (trimAll springsInSeries).nodes i d = some k)
    (ho : equationOf springsInSeries.nodes i d = some o) : o = 7 := by
  have h : ∀ i : Fin 3, ∀ d : Fin 3, equationOf (trimAll springsInSeries).nodes i d = none ∨ equationOf springsInSeries.nodes i d = some 7 := by
    decide +kernel
  by_cases hi : i < 3
  · rcases h ⟨i, hi⟩ d with e | e
    · rw [e] at hk; cases hk
    · rw [e] at ho; injection ho with ho; exact ho.symm
  · have hl : springsInSeries.nodes.length = 3 := rfl
    rw [equationOf, List.getElem?_eq_none (by omega)] at ho
    cases ho

/-- C104_static_iff: the displacements of the two springs in series under the unit load, of which the equation that is left is not satisfied. -/
example : ¬ ∑ k' ∈ Finset.range (trimAll springsInSeries).N, (trimAll springsInSeries).Kg 0 k' * (fun _ => (-2 : ℚ)) k' =
    (trimAll springsInSeries).F 0 := by
  rw [C104_static_iff springsInSeries (C09_numbering_ordered _) (fun o => if o = 4 then -1 else if o = 7 then -2 else 0) (fun _ => -2)
    (fun i d k o hk ho => by rw [springsInSeries_retained i d k o hk ho]; simp) (i := 2) (d := 1) (k := 0) (o := 7) (by decide +kernel)
    (by decide +kernel) (by decide +kernel)]
  decide +kernel

/-- C104_static_partial: if the node between the layers does not move, the equation that is left has the displacement of the mass. -/
example : ∑ k' ∈ Finset.range (trimAll springsInSeries).N, (trimAll springsInSeries).Kg 0 k' * (fun _ => (-1 : ℚ)) k' =
    (trimAll springsInSeries).F 0 := by
  refine C104_static_partial springsInSeries (C09_numbering_ordered _) (fun o => if o = 7 then -1 else 0) (fun _ => -1)
    (fun i d k o hk ho => by rw [springsInSeries_retained i d k o hk ho]; simp) (i := 2) (d := 1) (k := 0) (o := 7) (by decide +kernel)
    (by decide +kernel) (by decide +kernel) ?_
  intro o' ho'
  by_cases h : o' = 7
  · subst h
    have : ¬ Obsolete springsInSeries 7 := by
      rw [← mem_obsoleteIndices]
      decide +kernel
    exact absurd ho' this
  · left
    simp [h]

/-- C125_wheel_loads: the cart on 60 sleepers on soft soil and 50 sleepers on stiff soil, its first wheel at the second output time. -/
example : ∃ t, setFullTrain .doubleDekker 20 1 = .ok t ∧ ∀ track, ∃ c sys run,
    combinedTrack (fun p : Fin 3 → ℝ => p) 2 (3 / 5) [(60, 1), (50, 3)] = .ok c ∧
    ({ exampleRide track t with track := c.numbered (3 / 5) } : TrackRide).coupledOn sys = .ok run ∧ 0 < t.1.wheelList.length ∧
    ∀ u : Spec.NodalField ℝ, let q : TrackRide := { exampleRide track t with track := c.numbered (3 / 5) }
      let wheel := q.train.wheelList.getD 0 (0, 0)
      let node := fun i => q.track.position (q.track.rail.getD i 0)
      ∑ i ∈ Finset.range (railCount 2 [(60, 1), (50, 3)]), ∑ d, (run.rail 0).load i 1 d * u (node i) d =
        q.staticLoad wheel * Spec.railDeflection (3 / 5 / (2 : ℕ)) (railCount 2 [(60, 1), (50, 3)]) node u
          (Spec.wheelX q.time q.vel (q.startOf wheel) 1) := by
  obtain ⟨t, ht, hv⟩ := exampleRide_validOn
  have hw : 0 < t.1.wheelList.length := by
    have e := setFullTrain_eq (K := ℝ) .doubleDekker (by decide) 20 1
    rw [ht] at e
    injection e with e
    subst e
    decide +kernel
  refine ⟨t, ht, fun track => ?_⟩
  obtain ⟨c, sys, hc, sound, hsys, hp, hrun⟩ := (hv track).track (fun p : Fin 3 → ℝ => p) (3 / 5)
  have runs := (hv track).runs.withTrack (c.numbered (3 / 5))
  obtain ⟨R, hco, hwf, hfacts⟩ := runs.run (sound.even (3 / 5)) hp
  exact ⟨c, sys, _, hc, hco, hw, fun u => C125_wheel_loads runs (sound.even (3 / 5)) sys _ hco 0 hw 1 (by simp [exampleRide]) u⟩

end Rose
