/-
Model of the system of a track with a semi-rigid hinge in its rail (`run_rose/demo_semi_rigid.py`,
`rose/pre_process/mesh_utils.py`, `rose/model/track.py`).
-/
import Verif.Model.HingedTrack
import Verif.Model.TrackSystem

set_option linter.unusedSectionVars false

namespace Rose

/-- The end spring of a rail part: `np.inf` where none is set, `rose/model/model_part.py:510-511`. -/
def springOf {K : Type*} : Option K → Spring K
  | none => .inf
  | some s => .fin s

/-- The beam of a rail part of a split rail without its length: the outer parts are copies of the rail,
`rose/pre_process/mesh_utils.py:149-150`; the parts at the hinge are new parts with the material and the section of the rail and a
spring at the end at the hinge, `rose/pre_process/mesh_utils.py:128-138`. -/
def RailPart.beam (p : RailPart ℝ) (rail : BeamPart ℝ) : BeamPart ℝ :=
  if p.spring1.isNone ∧ p.spring2.isNone then rail else { rail with s1 := springOf p.spring1, s2 := springOf p.spring2 }

/-- A rail part of a split rail after `initialize`, `rose/model/track.py:43-75`, `rose/model/model_part.py:904-913`: its length is
computed from its own nodes; a copy of the rail with one node keeps the length of the rail, a new part without a length raises. -/
noncomputable def HorizontalTrack.pieceAssembly (t : HorizontalTrack ℝ) (rail : BeamPart ℝ) (p : RailPart ℝ) :
    Except Err (AssemblyPart ℝ) :=
  match calculateLengthRail (p.nodes.map fun i => (t.store i).pos)
      (if p.spring1.isNone ∧ p.spring2.isNone then some t.lengthElement else none) with
  | .error e => .error e
  | .ok none => .error .typeError
  | .ok (some l) => .ok (beamAssembly { p.beam rail with l := l } (t.placed p.elements) (p.nodes.map t.position))

/-- The system of a generated track with a hinge at `xh` of fixity factor `f`, `run_rose/demo_semi_rigid.py:74-189`: the parts of the
split rail, pads, sleepers and soil; a side boundary that holds the first and the last node of the split rail in x if `held` (lines
149-151); the bottom of the soil fixed. The hinge itself, with its mass, is not among the parts of the system (lines 158-161).
Simplification: one segment, without a train. -/
noncomputable def HorizontalTrack.hingedSystem (t : HorizontalTrack ℝ) (v : TrackValues) (f xh : ℝ) (held : Bool) :
    Except Err (SystemInput ℝ) := do
  let pieces ← t.hingedRail v.rail.E v.rail.I f t.lengthElement xh
  let rails ← pieces.mapM (t.pieceAssembly v.rail)
  let bottom ← bottomBoundary (fun k => (t.store k).pos 1) (t.soil.map fun e => [e.1, e.2])
  let sides ← match pieces.head?.bind (fun p => p.nodes.head?), pieces.getLast?.bind (fun p => p.nodes.getLast?) with
    | some a, some b => .ok [a, b]
    | _, _ => .error .indexError
  .ok {
    n := t.meshNodes.length
    parts := rails ++ [
      rodAssembly v.pad (t.placed t.pads) (t.padNodes.map t.position),
      sleeperAssembly v.sleeperMass (t.sleepers.map t.position),
      rodAssembly v.soil (t.placed t.soil) (t.soilNodes.map t.position)]
    loads := v.loads
    constraints := (if held then [⟨sides.map t.position, ![false, true, true]⟩] else []) ++
      [⟨bottom.map t.position, ![false, false, false]⟩]
    isRayleigh := v.isRayleigh, ratio := v.ratio, w1 := v.w1, w2 := v.w2 }

end Rose
