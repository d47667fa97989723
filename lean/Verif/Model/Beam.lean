/-
Model of the rod and Timoshenko beam elements of `rose/model/model_part.py` and of the matrix rotation in
`rose/model/utils.py`. Floats are exact elements of an ordered field `K`.
-/
import Verif.Model.Array

namespace Rose

variable {K : Type*} [Field K] [LinearOrder K] [IsStrictOrderedRing K]

/-! ### Rod (`RodElementModelPart`) -/

/-- `RodElementModelPart.set_aux_mass_matrix`, `rose/model/model_part.py:423-434` (the case `mass is not None`). -/
def rodMass (mass : K) : Matrix (Fin 2) (Fin 2) K :=
  dotScalar
    (fancySet (fancySet (fancySet (fancySet 0 [(0, 0)] 2) [(1, 0)] 1) [(0, 1)] 1) [(1, 1)] 2)
    (mass / 6)

/-- `RodElementModelPart.set_aux_stiffness_matrix`, `rose/model/model_part.py:436-446`
(the case `stiffness is not None`). -/
def rodStiffness (stiffness : K) : Matrix (Fin 2) (Fin 2) K :=
  fancySet (fancySet (fancySet (fancySet 0 [(0, 0)] stiffness) [(1, 0)] (-stiffness)) [(0, 1)] (-stiffness))
    [(1, 1)] stiffness

/-- `RodElementModelPart.set_aux_damping_matrix`, `rose/model/model_part.py:448-458`
(the case `damping is not None`). -/
def rodDamping (damping : K) : Matrix (Fin 2) (Fin 2) K :=
  fancySet (fancySet (fancySet (fancySet 0 [(0, 0)] damping) [(1, 0)] (-damping)) [(0, 1)] (-damping))
    [(1, 1)] damping

/-- `set_normal_shape_functions`, `rose/model/model_part.py:467-475` and `788-796` (same code for rod and beam).
The division raises for `length_element = 0`; the theorems assume a non-zero length. -/
def normalShape (l x : K) : Fin 2 → K := ![1 - x / l, x / l]

/-! ### Beam (`TimoshenkoBeamElementModelPart`) -/

/-- A rotational end spring stiffness: a finite number or `np.inf` (the default, `rose/model/model_part.py:510-511`). -/
inductive Spring (K : Type*) where
  | inf : Spring K
  | fin : K → Spring K

/-- The attributes of a `TimoshenkoBeamElementModelPart`, its `Material` and `Section` that enter its matrices
(`rose/model/model_part.py:19-22, 58-64, 494-511`). -/
structure BeamPart (K : Type*) where
  /-- `material.youngs_modulus` -/
  E : K
  /-- `material.poisson_ratio` -/
  nu : K
  /-- `material.density` -/
  rho : K
  /-- `section.area` -/
  A : K
  /-- `section.sec_moment_of_inertia` -/
  I : K
  /-- `section.shear_factor` -/
  kappa : K
  /-- `length_element` -/
  l : K
  /-- `spring_stiffness1` -/
  s1 : Spring K
  /-- `spring_stiffness2` -/
  s2 : Spring K

/-- `Material.shear_modulus`, `rose/model/model_part.py:36-44`. -/
def shearModulus (E nu : K) : K := E / (2 * (1 + nu))

/-- `calculate_timoshenko_factor`, `rose/model/model_part.py:585-602`. The attribute is initialised to `0`
(line 509) and only overwritten for a positive shear factor; a first initialisation is modelled. -/
def timoshenkoFactor (b : BeamPart K) : K :=
  if b.kappa > 0 then 12 * b.E * b.I / (b.l ^ 2 * shearModulus b.E b.nu * b.A * b.kappa) else 0

/-- The conditional expression for `alpha1`/`alpha2`, `rose/model/model_part.py:722-723`. For `s = inf` python
evaluates `1 / (1 + 3*EI/inf) = 1` (for a positive length). -/
def fixity (EI l : K) : Spring K → K
  | .inf => 1
  | .fin s => if s > 0 then 1 / (1 + 3 * EI / (s * l)) else 0

/-- `__set_rigid_part_stiffness_matrix` after `alpha1`, `alpha2` are computed, `rose/model/model_part.py:725-734`. -/
def rigidPart (a1 a2 : K) : Matrix (Fin 6) (Fin 6) K :=
  let m := fancySet 0 [(0, 0), (3, 3)] (1 : K)
  let m := fancySet m [(3, 0), (0, 3)] 1
  let m := fancySet m [(1, 1), (4, 4), (1, 4), (4, 1)] ((a1 + a2 + a1 * a2) / (4 - a1 * a2))
  let m := fancySet m [(1, 2), (2, 1), (2, 4), (4, 2)] ((2 * a1 + a1 * a2) / (4 - a1 * a2))
  let m := fancySet m [(1, 5), (5, 1), (4, 5), (5, 4)] ((2 * a2 + a1 * a2) / (4 - a1 * a2))
  let m := fancySet m [(2, 2)] (3 * a1 / (4 - a1 * a2))
  let m := fancySet m [(5, 5)] (3 * a2 / (4 - a1 * a2))
  fancySet m [(2, 5), (5, 2)] (3 * a1 * a2 / (4 - a1 * a2))

/-- The unscaled matrix of `set_aux_stiffness_matrix`, `rose/model/model_part.py:747-762`. -/
def beamStiffnessCore (A I phi l : K) : Matrix (Fin 6) (Fin 6) K :=
  let m := fancySet 0 [(0, 0), (3, 3)] (A / I * (1 + phi) * l ^ 2)
  let m := fancySet m [(3, 0), (0, 3)] (-A / I * (1 + phi) * l ^ 2)
  let m := fancySet m [(1, 1), (4, 4)] 12
  let m := fancySet m [(1, 4), (4, 1)] (-12)
  let m := fancySet m [(1, 2), (1, 5), (2, 1), (5, 1)] (6 * l)
  let m := fancySet m [(2, 4), (4, 2), (4, 5), (5, 4)] (-6 * l)
  let m := fancySet m [(2, 2), (5, 5)] ((4 + phi) * l ^ 2)
  fancySet m [(2, 5), (5, 2)] ((2 - phi) * l ^ 2)

/-- `set_aux_stiffness_matrix` with the shear ratio `phi` and the fixity factors given,
`rose/model/model_part.py:736-770`. The final `reshape_aux_matrix(2, [True]*3, ..)` is the identity
(`reshape_all_active` in `Verif.Props.Assembly`). -/
def beamStiffness (E A I phi l a1 a2 : K) : Matrix (Fin 6) (Fin 6) K :=
  dotScalar (hadamard (beamStiffnessCore A I phi l) (rigidPart a1 a2)) (E * I / ((1 + phi) * l ^ 3))

/-- The stiffness matrix of a beam part after `initialize`, `rose/model/model_part.py:904-913` and `243-253`. -/
def BeamPart.stiffness (b : BeamPart K) : Matrix (Fin 6) (Fin 6) K :=
  beamStiffness b.E b.A b.I (timoshenkoFactor b) b.l (fixity (b.E * b.I) b.l b.s1) (fixity (b.E * b.I) b.l b.s2)

/-- `__set_translational_aux_mass_matrix`, `rose/model/model_part.py:618-666` (`nodal_ndof == 3`). -/
def beamTransMass (rho A phi l : K) : Matrix (Fin 6) (Fin 6) K :=
  let constant := rho * A * l / (210 * (1 + phi) ^ 2)
  let m := fancySet 0 [(0, 0), (3, 3)] (70 * (1 + phi) ^ 2)
  let m := fancySet m [(3, 0), (0, 3)] (35 * (1 + phi) ^ 2)
  let m := fancySet m [(1, 1), (4, 4)] (70 * phi ^ 2 + 147 * phi + 78)
  let m := fancySet m [(1, 4), (4, 1)] (35 * phi ^ 2 + 63 * phi + 27)
  let m := fancySet m [(1, 2), (2, 1)] ((35 * phi ^ 2 + 77 * phi + 44) * l / 4)
  let m := fancySet m [(1, 5), (5, 1)] (-(35 * phi ^ 2 + 63 * phi + 26) * l / 4)
  let m := fancySet m [(2, 2), (5, 5)] ((7 * phi ^ 2 + 14 * phi + 8) * (l ^ 2 / 4))
  let m := fancySet m [(2, 5), (5, 2)] (-(7 * phi ^ 2 + 14 * phi + 6) * (l ^ 2 / 4))
  let m := fancySet m [(2, 4), (4, 2)] ((35 * phi ^ 2 + 63 * phi + 26) * (l / 4))
  let m := fancySet m [(4, 5), (5, 4)] (-(35 * phi ^ 2 + 77 * phi + 44) * (l / 4))
  dotScalar m constant

/-- `__set_rotational_aux_mass_matrix`, `rose/model/model_part.py:668-699` (`nodal_ndof == 3`). -/
def beamRotMass (rho I phi l : K) : Matrix (Fin 6) (Fin 6) K :=
  let constant := rho * I / (30 * (1 + phi) ^ 2 * l)
  let m := fancySet 0 [(1, 1), (4, 4)] 36
  let m := fancySet m [(1, 4), (4, 1)] (-36)
  let m := fancySet m [(1, 2), (1, 5), (2, 1), (5, 1)] (-(15 * phi - 3) * l)
  let m := fancySet m [(2, 2), (5, 5)] ((10 * phi ^ 2 + 5 * phi + 4) * l ^ 2)
  let m := fancySet m [(2, 5), (5, 2)] ((5 * phi ^ 2 - 5 * phi - 1) * l ^ 2)
  let m := fancySet m [(2, 4), (4, 2), (4, 5), (5, 4)] ((15 * phi - 3) * l)
  dotScalar m constant

/-- `set_aux_mass_matrix`, `rose/model/model_part.py:701-709`. -/
def beamMass (rho A I phi l : K) : Matrix (Fin 6) (Fin 6) K :=
  if phi ≠ 0 then beamTransMass rho A phi l + beamRotMass rho I phi l else beamTransMass rho A phi l

/-- The mass matrix of a beam part after `initialize`, `rose/model/model_part.py:701-710, 904-913`. -/
def BeamPart.massMatrix (b : BeamPart K) : Matrix (Fin 6) (Fin 6) K :=
  beamMass b.rho b.A b.I (timoshenkoFactor b) b.l

/-- `set_y_shape_functions`, `rose/model/model_part.py:798-837`. -/
def yShape (phi l x : K) : Fin 4 → K :=
  let c := 1 / (1 + phi)
  let x_l := x / l
  let x_l2 := x_l ^ 2
  let x2 := x ^ 2
  let x3 := x ^ 3
  ![c * (1 + 2 * x_l ^ 3 - 3 * x_l2 + phi * (1 - x_l)),
    c * (x + x3 / l ^ 2 - 2 * (x2 / l) + phi / 2 * (x_l - x_l2)),
    c * (-2 * x_l ^ 3 + 3 * x_l2 + phi * x_l),
    c * (x3 / l ^ 2 - x2 / l + phi / 2 * (x_l2 - x_l))]

/-- `set_z_rot_shape_functions`, `rose/model/model_part.py:839-847`. -/
def zRotShape (phi l x : K) : Fin 4 → K :=
  let c := 1 / (1 + phi)
  ![c * (6 * x ^ 2 / l ^ 3 - 6 * x / l ^ 2 - phi / l),
    c * (1 + 3 * x ^ 2 / l ^ 2 - 4 * x / l + phi / 2 * (1 / l - 2 * x / l ^ 2)),
    c * (-6 * x ^ 2 / l ^ 3 + 6 * x / l ^ 2 + phi / l),
    c * (3 * x ^ 2 / l ^ 2 - 2 * x / l + phi / 2 * (2 * x / l ^ 2 - 1 / l))]

/-- `calculate_local_forces_at_x`, `rose/model/model_part.py:849-874`: the triple `(N, V, M)` for the element
stiffness matrix `Kel`, the element's `phi`, `l`, the position `x` and the local displacement `u`. -/
def localForcesAt (Kel : Matrix (Fin 6) (Fin 6) K) (phi l x : K) (u : Fin 6 → K) : K × K × K :=
  let F := Kel.mulVec u
  let Fel : Fin 6 → K := ![F 0, F 1, F 2, -F 3, -F 4, -F 5]
  let nN := normalShape l x
  let nV := yShape phi l x
  let nM := zRotShape phi l x
  (nN 0 * Fel 0 + nN 1 * Fel 3,
   nV 0 * Fel 1 + nV 1 * Fel 2 + nV 2 * Fel 4 + nV 3 * Fel 5,
   nM 0 * Fel 1 + nM 1 * Fel 2 + nM 2 * Fel 4 + nM 3 * Fel 5)

/-- `calculate_strain`, `rose/model/model_part.py:876-902`: strains at the top and at the bottom of the section of
height `h` with neutral axis at height `y`. For `M = 0` python divides by `curvature_radius = inf` (numpy float
division), i.e. the bending term vanishes; `(h - y) / (E*I / M)` is therefore written `(h - y) * M / (E*I)`. -/
def strainAt (E A I h y : K) (NVM : K × K × K) : K × K :=
  (NVM.1 / (E * A) + (h - y) * NVM.2.2 / (E * I), NVM.1 / (E * A) - y * NVM.2.2 / (E * I))

/-! ### Rotation -/

/-- `set_rotation_matrix`, `rose/model/model_part.py:408-421` and `604-616`, with `c = cos(rotation)`,
`s = sin(rotation)`. -/
def rotationMatrix (c s : K) : Matrix (Fin 6) (Fin 6) K :=
  let m := fancySet 0 [(0, 0), (1, 1), (3, 3), (4, 4)] c
  let m := fancySet m [(0, 1), (3, 4)] s
  let m := fancySet m [(1, 0), (4, 3)] (-s)
  fancySet m [(2, 2), (5, 5)] 1

/-- `rotate_aux_matrix`, `rose/model/utils.py:276-294`, for a two-noded element with direction cosines `c`, `s`. -/
def rotateAux (c s : K) (a : Matrix (Fin 6) (Fin 6) K) : Matrix (Fin 6) (Fin 6) K :=
  rotationMatrix c s * (a * (rotationMatrix c s).transpose)

/-- A rod matrix embedded into the six nodal dofs (x displacement of both nodes),
`reshape_aux_matrix(2, [True, False, False], aux)`, `rose/model/global_system.py:141-177`.
(`reshape_rod` in `Verif.Props.Assembly` proves that the loop of `rose/model/utils.py:88-118` yields this.) -/
def rodEmbed (a : Matrix (Fin 2) (Fin 2) K) : Matrix (Fin 6) (Fin 6) K :=
  fancySet (fancySet (fancySet (fancySet 0 [(0, 0)] (a 0 0)) [(0, 3)] (a 0 1)) [(3, 0)] (a 1 0)) [(3, 3)] (a 1 1)

end Rose
