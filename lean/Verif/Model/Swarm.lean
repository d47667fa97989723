/-
Model of `rose/optimisation/particle_swarm_optimisation.py`. Positions are functions on the dimensions; random draws are parameters.
Python lists are mutable objects: `position_i` is one list object for the whole life of a particle, changed in place, and
`pos_best_i` is either the empty list of the constructor or a second reference to that object.
-/
import Mathlib.Algebra.Order.Field.Basic

set_option linter.unusedSectionVars false

namespace Rose

variable {K : Type*} [Field K] [LinearOrder K] [IsStrictOrderedRing K] {d : ℕ}

/-- `Particle.__init__`, `rose/optimisation/particle_swarm_optimisation.py:26-37`. `bestIsPosition`: `pos_best_i` refers to the list object of
`position_i` (otherwise to the empty list). `seen` is not in the program: it records the evaluated positions for the statements. -/
structure Particle (K : Type*) (d : ℕ) where
  position : Fin d → K
  velocity : Fin d → K
  bestIsPosition : Bool
  errBest : K
  err : K
  seen : List (Fin d → K)

/-- `Particle.__init__`, `rose/optimisation/particle_swarm_optimisation.py:26-37`; `v0`: the random velocities. -/
def Particle.new (x0 v0 : Fin d → K) : Particle K d := ⟨x0, v0, false, -1, -1, []⟩

/-- The content of `pos_best_i` when it is read (the empty list: `none`), `rose/optimisation/particle_swarm_optimisation.py:31, 46`. -/
def Particle.posBest (p : Particle K d) : Option (Fin d → K) := if p.bestIsPosition then some p.position else none

/-- `Particle.evaluate`, `rose/optimisation/particle_swarm_optimisation.py:40-46`. -/
def Particle.evaluate (cost : (Fin d → K) → K) (p : Particle K d) : Particle K d :=
  if cost p.position < p.errBest ∨ p.errBest = -1 then
    { p with err := cost p.position, bestIsPosition := true, errBest := cost p.position, seen := p.seen ++ [p.position] }
  else { p with err := cost p.position, seen := p.seen ++ [p.position] }

/-- `Particle.update_velocity`, `rose/optimisation/particle_swarm_optimisation.py:49-60`; `r i`: the two random draws of dimension `i`. An
unset best position (index error in Python, cannot happen after an evaluation) leaves the velocity. -/
def Particle.updateVelocity (g : Fin d → K) (r : Fin d → K × K) (p : Particle K d) : Particle K d :=
  { p with velocity := fun i =>
      match p.posBest with
      | none => p.velocity i
      | some b => 1 / 2 * p.velocity i + 1 * (r i).1 * (b i - p.position i) + 2 * (r i).2 * (g i - p.position i) }

/-- Clamping in `Particle.update_position`, `rose/optimisation/particle_swarm_optimisation.py:67-73`: first the maximum, then the minimum. -/
def clamp (lo hi x : K) : K :=
  let y := if hi < x then hi else x
  if y < lo then lo else y

/-- `Particle.update_position`, `rose/optimisation/particle_swarm_optimisation.py:63-73`. -/
def Particle.updatePosition (bounds : Fin d → K × K) (p : Particle K d) : Particle K d :=
  { p with position := fun i => clamp (bounds i).1 (bounds i).2 (p.position i + p.velocity i) }

/-- The best of the group, `rose/optimisation/particle_swarm_optimisation.py:80-81`; `evaluated` is not in the program: it records all
evaluated positions. -/
structure Group (K : Type*) (d : ℕ) where
  posBest : Option (Fin d → K)
  errBest : K
  evaluated : List (Fin d → K)

/-- `rose/optimisation/particle_swarm_optimisation.py:80-81`. -/
def Group.new : Group K d := ⟨none, -1, []⟩

/-- One pass of `rose/optimisation/particle_swarm_optimisation.py:97-99` after particle `p` was evaluated; `pos_best_g` is a copy. -/
def Group.update (g : Group K d) (p : Particle K d) : Group K d :=
  if p.err < g.errBest ∨ g.errBest = -1 then ⟨some p.position, p.err, g.evaluated ++ [p.position]⟩
  else { g with evaluated := g.evaluated ++ [p.position] }

/-- The evaluation loop, `rose/optimisation/particle_swarm_optimisation.py:93-99`. -/
def evaluateAll (cost : (Fin d → K) → K) : Group K d → List (Particle K d) → Group K d × List (Particle K d)
  | g, [] => (g, [])
  | g, p :: ps =>
    let p' := p.evaluate cost
    let rest := evaluateAll cost (g.update p') ps
    (rest.1, p' :: rest.2)

/-- The state of the optimisation, `rose/optimisation/particle_swarm_optimisation.py:76-116`. -/
structure Swarm (K : Type*) (d : ℕ) where
  group : Group K d
  particles : List (Particle K d)

/-- One iteration, `rose/optimisation/particle_swarm_optimisation.py:90-105`; `r j`: the draws of particle `j`. Without particles there is no
best position and nothing to update. -/
def Swarm.step (cost : (Fin d → K) → K) (bounds : Fin d → K × K) (r : ℕ → Fin d → K × K) (s : Swarm K d) : Swarm K d :=
  let e := evaluateAll cost s.group s.particles
  ⟨e.1, e.2.mapIdx fun j p =>
    match e.1.posBest with
    | none => p
    | some g => (p.updateVelocity g (r j)).updatePosition bounds⟩

/-- `PSO.__init__`, `rose/optimisation/particle_swarm_optimisation.py:76-110`: the state when the final results are printed. `v0 j`: initial
velocities of particle `j`; `r n j`: draws of particle `j` in iteration `n`. -/
def pso (cost : (Fin d → K) → K) (x0 : Fin d → K) (bounds : Fin d → K × K) (numParticles : ℕ) (v0 : ℕ → Fin d → K)
    (r : ℕ → ℕ → Fin d → K × K) : ℕ → Swarm K d
  | 0 => ⟨Group.new, (List.range numParticles).map fun j => Particle.new x0 (v0 j)⟩
  | n + 1 => (pso cost x0 bounds numParticles v0 r n).step cost bounds (r n)

end Rose
