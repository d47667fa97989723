/-
Model of the train: `rose/model/train_model.py`.

A train is a list of carts; bogies are objects with an identity (a natural number) and may be connected to several
carts; every wheel belongs to one bogie. Two different bogies are assumed to stand at different places, and so are two
different wheels (`__get_bogies`, `__get_wheels` identify them by location).
-/
import Verif.Model.MovingLoad

set_option linter.unusedSectionVars false

namespace Rose

/-! ### Data -/

/-- `Bogie`, `rose/model/train_model.py:114-155`; `wheels` are (mass, distance to the bogie centre). -/
structure Bogie (K : Type*) where
  mass : K
  inertia : K
  stiffness : K
  damping : K
  wheels : List (K × K)
  factors : List K

/-- `Cart`, `rose/model/train_model.py:337-375`; `bogies` are (bogie object, distance to the cart centre). -/
structure Cart (K : Type*) where
  mass : K
  inertia : K
  stiffness : K
  damping : K
  bogies : List (ℕ × K)
  factors : List K

/-- `TrainModel`, `rose/model/train_model.py:567-607`. -/
structure Train (K : Type*) where
  carts : List (Cart K)
  bogie : ℕ → Bogie K

/-- `__get_bogies`, `rose/model/train_model.py:634-646`: each bogie once, in order of first visit. -/
def Train.bogies {K : Type*} (t : Train K) : List ℕ :=
  distinctInOrder (t.carts.flatMap fun c => c.bogies.map Prod.fst)

/-! ### Degrees of freedom -/

/-- The degrees of freedom of a train: vertical and rotation of carts and bogies, vertical of wheels,
`rose/model/train_model.py:34, 155-160, 378-383`. -/
inductive TrainDof where
  | cartY (i : ℕ)
  | cartRot (i : ℕ)
  | bogieY (b : ℕ)
  | bogieRot (b : ℕ)
  | wheelY (b j : ℕ)
  deriving DecidableEq

/-- The running index and the `index_dof` entries of all nodes, `rose/model/train_model.py:672-685`. -/
structure Numbering where
  next : ℕ
  idx : TrainDof → Option ℕ

/-- `node.index_dof[..] = index_dof; index_dof += 1`, `rose/model/train_model.py:83-95, 195-222, 419-444`. -/
def Numbering.push (s : Numbering) (d : TrainDof) : Numbering := ⟨s.next + 1, write s.idx (d, some s.next)⟩

/-- `Bogie.calculate_active_n_dof`, `rose/model/train_model.py:195-222`, with `Wheel.calculate_active_n_dof`, lines
82-94: nothing happens if the bogie has an index already. -/
def numberBogie (nWheels : ℕ → ℕ) (s : Numbering) (b : ℕ) : Numbering :=
  if s.idx (.bogieY b) = none ∧ s.idx (.bogieRot b) = none then
    (List.range (nWheels b)).foldl (fun s j => s.push (.wheelY b j)) ((s.push (.bogieY b)).push (.bogieRot b))
  else s

/-- `Cart.calculate_active_n_dof`, `rose/model/train_model.py:419-444`, for cart number `i`. -/
def numberCart (nWheels : ℕ → ℕ) (s : Numbering) (c : ℕ × List ℕ) : Numbering :=
  c.2.foldl (numberBogie nWheels) ((s.push (.cartY c.1)).push (.cartRot c.1))

/-- `TrainModel.initialise_ndof`, `rose/model/train_model.py:672-683`: all nodes are fresh (`set_mesh`), carts are
visited in order. `start` is the index given to the first cart (0 in the code). -/
def numberCarts (nWheels : ℕ → ℕ) (start : ℕ) (carts : List (List ℕ)) : Numbering :=
  ((List.range carts.length).map fun i => (i, carts.getD i [])).foldl (numberCart nWheels) ⟨start, fun _ => none⟩

/-- The numbering of a train, `rose/model/train_model.py:672-685`. -/
def Train.numbering {K : Type*} (t : Train K) : Numbering :=
  numberCarts (fun b => (t.bogie b).wheels.length) 0 (t.carts.map fun c => c.bogies.map Prod.fst)

/-- The dof index of a body of the train, `rose/model/train_model.py:672-685`. -/
def Train.dof {K : Type*} (t : Train K) (d : TrainDof) : ℕ := (t.numbering.idx d).getD 0

/-- `total_n_dof`, `rose/model/train_model.py:684-685`: each cart counts its bogies (2 + wheels), also shared ones. -/
def Train.totalNdof {K : Type*} (t : Train K) : ℕ :=
  (t.carts.map fun c => 2 + (c.bogies.map fun b => 2 + (t.bogie b.1).wheels.length).sum).sum

section matrices
variable {K : Type*} [Field K]

/-! ### Matrices -/

/-- `matrix[i, j] += v`, `rose/model/train_model.py:243-292, 465-524`. -/
def addAt (A : ℕ → ℕ → K) (i j : ℕ) (v : K) : ℕ → ℕ → K := fun a b => if a = i ∧ b = j then A a b + v else A a b

/-- A body on springs (or dampers): its vertical and rotational dof, the stiffness, the vertical dofs and distances of
the bodies below, and the distribution factors, `rose/model/train_model.py:243-271, 465-495`. -/
structure Suspension (K : Type*) where
  y : ℕ
  r : ℕ
  k : K
  children : List (ℕ × K)
  factors : List K

/-- Body of the loop, `rose/model/train_model.py:258-271` (bogie), `485-495` (cart): the six additions for child
`(c, d)` with distribution factor `f`. -/
def fillChild (s : Suspension K) (A : ℕ → ℕ → K) (c : ℕ) (d f : K) : ℕ → ℕ → K :=
  let A := addAt A s.r s.r (s.k * d ^ 2 * f)
  let A := addAt A s.y c (-s.k * f)
  let A := addAt A c s.y (-s.k * f)
  let A := addAt A s.r c (s.k * d * f)
  let A := addAt A c s.r (s.k * d * f)
  addAt A c c (s.k * f)

/-- `Bogie.fill_stiffness_matrix`, `rose/model/train_model.py:243-271`, `Cart.fill_stiffness_matrix`, lines 465-495, and
the damping versions, lines 273-294 and 497-524, which have the same form. A missing distribution factor would raise an
index error in the code; here it is zero, and theorems assume as many factors as children. -/
def fillSuspension (A : ℕ → ℕ → K) (s : Suspension K) : ℕ → ℕ → K :=
  (s.children.zip s.factors).foldl (fun A p => fillChild s A p.1.1 p.1.2 p.2) (addAt A s.y s.y (s.k * s.factors.sum))

/-- `check_distribution_factors`, `rose/model/train_model.py:875-889`: no factors means ones. -/
def factorsOrOnes (n : ℕ) (fs : List K) : List K := if fs = [] then List.replicate n 1 else fs

/-- The suspension of cart number `i`; `q` selects stiffness or damping, `rose/model/train_model.py:465-524`. -/
def Train.cartSuspension (t : Train K) (q : Cart K → K) (i : ℕ) (c : Cart K) : Suspension K :=
  ⟨t.dof (.cartY i), t.dof (.cartRot i), q c, c.bogies.map fun b => (t.dof (.bogieY b.1), b.2),
    factorsOrOnes c.bogies.length c.factors⟩

/-- The suspension of bogie `b`, `rose/model/train_model.py:243-292`. -/
def Train.bogieSuspension (t : Train K) (q : Bogie K → K) (b : ℕ) : Suspension K :=
  ⟨t.dof (.bogieY b), t.dof (.bogieRot b), q (t.bogie b),
    (List.range (t.bogie b).wheels.length).map fun j => (t.dof (.wheelY b j), ((t.bogie b).wheels.getD j (0, 0)).2),
    factorsOrOnes (t.bogie b).wheels.length (t.bogie b).factors⟩

/-- All suspensions in the order in which they are added: the carts, then each bogie once, `rose/model/train_model.py:700-732`. -/
def Train.suspensions (t : Train K) (qc : Cart K → K) (qb : Bogie K → K) : List (Suspension K) :=
  (List.range t.carts.length).flatMap (fun i => (t.carts[i]?.toList).map (t.cartSuspension qc i)) ++
    t.bogies.map (t.bogieSuspension qb)

/-- `set_global_stiffness_matrix`, `rose/model/train_model.py:701-716`. -/
def Train.stiffness (t : Train K) : ℕ → ℕ → K :=
  (t.suspensions Cart.stiffness Bogie.stiffness).foldl fillSuspension fun _ _ => 0

/-- `set_global_damping_matrix`, `rose/model/train_model.py:718-733`. -/
def Train.damping (t : Train K) : ℕ → ℕ → K :=
  (t.suspensions Cart.damping Bogie.damping).foldl fillSuspension fun _ _ => 0

/-! ### Masses and weights -/

/-- The assignments of `fill_static_force_vector` (`-mass * g`) or of `fill_mass_matrix` on the vertical diagonal
(`mass`), `rose/model/train_model.py:37-56`, `224-241`, `296-308`, `446-463`, `526-542`, in order; `h` maps a mass to the
assigned value. -/
def Train.massWrites (t : Train K) (h : K → K) : List (TrainDof × K) :=
  (List.range t.carts.length).flatMap fun i => (t.carts[i]?.toList).flatMap fun c =>
    (TrainDof.cartY i, h c.mass) :: c.bogies.flatMap fun b =>
      (TrainDof.bogieY b.1, h (t.bogie b.1).mass) ::
        (List.range (t.bogie b.1).wheels.length).map fun j =>
          (TrainDof.wheelY b.1 j, h ((t.bogie b.1).wheels.getD j (0, 0)).1)

/-! ### Static loads -/

/-- `total_static_load` of the bogies and wheels (`none` before the first initialisation),
`rose/model/train_model.py:97-111, 310-334, 544-564`. -/
structure StaticLoads (K : Type*) where
  bogie : ℕ → Option K
  wheel : ℕ → ℕ → Option K

/-- `Bogie.calculate_total_static_load`, `rose/model/train_model.py:310-323`: `own` is the weight force of the bogie. -/
def addBogieLoad (own : ℕ → K) (ext : K) (s : StaticLoads K) (b : ℕ) : StaticLoads K :=
  { s with bogie := write s.bogie (b, some ((s.bogie b).getD (own b) + ext)) }

/-- `Cart.calculate_total_static_load`, `rose/model/train_model.py:544-564`: the weight of the cart and the external load
are divided over its bogies. -/
def cartLoad (own : ℕ → K) (g ext : K) (s : StaticLoads K) (c : Cart K) : StaticLoads K :=
  (c.bogies.map Prod.fst).foldl (addBogieLoad own ((-c.mass * g + ext) / c.bogies.length)) s

/-- `Wheel.calculate_total_static_load`, `rose/model/train_model.py:96-111`. -/
def addWheelLoad (own ext : K) (b : ℕ) (s : StaticLoads K) (j : ℕ) : StaticLoads K :=
  { s with wheel := fun b' j' => if b' = b ∧ j' = j then some ((s.wheel b j).getD own + ext) else s.wheel b' j' }

/-- `Bogie.distribute_static_load`, `rose/model/train_model.py:325-334`. -/
def distributeBogie (t : Train K) (g : K) (s : StaticLoads K) (b : ℕ) : StaticLoads K :=
  (List.range (t.bogie b).wheels.length).foldl
    (fun s' j => addWheelLoad (-((t.bogie b).wheels.getD j (0, 0)).1 * g)
      ((s.bogie b).getD 0 / (t.bogie b).wheels.length) b s' j) s

/-- `TrainModel.calculate_total_static_load`, `rose/model/train_model.py:747-768`, called without external load; the
force vector holds `-mass * g` at every vertical dof. -/
def totalStaticLoad (t : Train K) (g : K) (s : StaticLoads K) : StaticLoads K :=
  t.bogies.foldl (distributeBogie t g)
    (t.carts.foldl (cartLoad (fun b => -(t.bogie b).mass * g) g (0 / t.carts.length)) s)

/-- State before the first initialisation, `rose/model/train_model.py:25-32, 135-153`. -/
def StaticLoads.fresh : StaticLoads K := ⟨fun _ => none, fun _ _ => none⟩

/-- `initialise_irregularities_at_wheels`, `rose/model/train_model.py:770-782`: per wheel and time; `generated` are the
irregularities generated in this call if irregularities are used. -/
def initIrregularities (generated : Option (ℕ → ℕ → K)) (s : Option (ℕ → ℕ → K)) : Option (ℕ → ℕ → K) :=
  some fun w k => (match s with | none => 0 | some a => a w k) + (match generated with | none => 0 | some a => a w k)

/-! ### Distances -/

/-- `calculate_distances`, `rose/model/train_model.py:816-841`: distances of wheel `j` of bogie `b` of a cart.
The order of summation is that of the code. -/
def travelled (time vel : List K) : List K := runningSums 0 (List.zipWith (· * ·) vel.dropLast (npDiff time))

/-- Distances of a cart with start coordinate `x0`, `rose/model/train_model.py:816-841`. -/
def cartDistances (time vel : List K) (x0 : K) : List K := (travelled time vel).map (· + x0)

/-- Distances of a wheel at offset `dw` of a bogie at offset `db` of that cart, `rose/model/train_model.py:816-841`. -/
def wheelDistances (time vel : List K) (x0 db dw : K) : List K :=
  ((cartDistances time vel x0).map (· + db)).map (· + dw)

/-! ### Initial displacement -/

/-- `impose_displacement`, `rose/model/train_model.py:941-960`, for a system with index set `ι`, wheel dofs `w` and
prescribed displacements `u`. -/
def imposeDisplacement {ι : Type*} [Fintype ι] (K' : Matrix ι ι K) (F : ι → K) (w : ι → Prop) [DecidablePred w]
    (u : ι → K) : ι → K := F + K'.mulVec fun i => if w i then u i else 0

end matrices
end Rose
