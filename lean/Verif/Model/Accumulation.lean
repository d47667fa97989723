/-
Model of the settlement accumulation: `rose/model/accumulation_model.py`.
Passage counts are whole numbers; numbers are exact. Varandas and Li & Selig treat the nodes independently of each other,
the model is for one node.
-/
import Verif.Model.Assembly
import Mathlib.Analysis.SpecialFunctions.Pow.Real
import Mathlib.Analysis.SpecialFunctions.Trigonometric.Arctan

set_option linter.unusedSectionVars false

namespace Rose

/-! ### Traffic -/

/-- Entry `i` of `np.linspace(a, b, n)`, `rose/model/accumulation_model.py:57-61, 175`. -/
noncomputable def linspaceAt (a b : ℝ) (n i : ℕ) : ℝ := if n ≤ 1 then a else a + (i : ℝ) * ((b - a) / ((n : ℝ) - 1))

/-- `np.linspace(a, b, n)`, `rose/model/accumulation_model.py:57, 175`. -/
noncomputable def linspace (a b : ℝ) (n : ℕ) : List ℝ := (List.range n).map (linspaceAt a b n)

/-- Traffic of one stage: passages (axles) of each train in the period, start time, output step
(`ReadTrainInfo`, `rose/model/accumulation_model.py:14-36`). -/
structure Traffic where
  cycles : List ℕ
  start : ℝ
  steps : ℕ

/-- `int(np.max(self.number_cycles))`, `rose/model/accumulation_model.py:59`. -/
def Traffic.maxCycles (t : Traffic) : ℕ := t.cycles.foldl max 0

/-- `int(np.max(self.number_cycles) / self.steps)`, `rose/model/accumulation_model.py:57, 61`. -/
def Traffic.outputs (t : Traffic) : ℕ := t.maxCycles / t.steps

/-- `self.cumulative_nb_cycles[n]`, `rose/model/accumulation_model.py:59`. -/
noncomputable def Traffic.cumulativeCycle (t : Traffic) (n : ℕ) : ℝ :=
  linspaceAt t.start ((t.maxCycles : ℝ) - 1) t.maxCycles n

/-- `self.cumulative_time`, `rose/model/accumulation_model.py:57`. -/
noncomputable def Traffic.cumulativeTime (t : Traffic) (endTime : ℝ) : List ℝ := linspace t.start endTime t.outputs

/-- `self.steps_index`, `rose/model/accumulation_model.py:61`: `np.linspace(0, N - 1, M).astype(int)`. -/
def Traffic.stepsIndex (t : Traffic) : List ℕ :=
  (List.range t.outputs).map fun j => if t.outputs ≤ 1 then 0 else j * (t.maxCycles - 1) / (t.outputs - 1)

/-- The trains that run in cycle `n`: `if nb_cyc <= train.number_cycles[tr]`,
`rose/model/accumulation_model.py:193-194`. -/
noncomputable def Traffic.trainsInCycle (t : Traffic) (n : ℕ) : List ℕ :=
  open Classical in (List.range t.cycles.length).filter fun tr => t.cumulativeCycle n ≤ (t.cycles.getD tr 0 : ℝ)

/-! ### Varandas -/

/-- Material and reference parameters, `rose/model/accumulation_model.py:82-106`; `N0` is `int(N0)`. -/
structure VarandasPar where
  alpha : ℝ
  beta : ℝ
  gamma : ℝ
  N0 : ℕ
  F0 : ℝ

/-- `M_alpha_beta`, `rose/model/accumulation_model.py:104-106`: the sum is over `range(1, int(N0))`. -/
noncomputable def VarandasPar.mAlphaBeta (p : VarandasPar) : ℝ :=
  p.F0 ^ (p.alpha + 1) / (p.alpha + 1) * ((List.range' 1 (p.N0 - 1)).map fun n : ℕ => (1 / (n : ℝ)) ^ p.beta).sum

/-- `scipy.integrate.trapezoid(y, x)` for the points `(x, y)`, `rose/model/accumulation_model.py:200`. -/
noncomputable def trapezoid : List (ℝ × ℝ) → ℝ
  | (x0, y0) :: (x1, y1) :: rest => (x1 - x0) * (y1 + y0) / 2 + trapezoid ((x1, y1) :: rest)
  | _ => 0

/-- The increment of one passage, `rose/model/accumulation_model.py:175, 199-202`: `fmax` is the largest force of all trains
at the node, `h` the load count `h_f`. -/
noncomputable def VarandasPar.increment (p : VarandasPar) (fmax h : ℝ) : ℝ :=
  p.gamma / p.mAlphaBeta * trapezoid ((linspace 0 fmax 100).map fun F => (F, F ^ p.alpha * (1 / (h + 1)) ^ p.beta))

/-- The state kept at a node: `h_f` and `max_val_force` per train, `rose/model/accumulation_model.py:159, 177, 213`. -/
structure VarState where
  h : ℝ
  mx : ℕ → ℝ

/-- The update of the state by a passage of train `tr`, `rose/model/accumulation_model.py:195-196`: `fm` are the largest
forces of the trains at the node. -/
noncomputable def VarState.passage (fm : ℕ → ℝ) (s : VarState) (tr : ℕ) : VarState :=
  open Classical in
  if fm tr ≤ s.mx tr then { s with h := s.h + 1 } else { s with mx := Function.update s.mx tr (fm tr) }

/-- `np.max(self.force_max, axis=0)` at the node (forces are absolute values), `rose/model/accumulation_model.py:169-175`. -/
noncomputable def maxForce (fm : ℕ → ℝ) (T : ℕ) : ℝ := ((List.range T).map fm).foldl max 0

/-- One train of a cycle: `rose/model/accumulation_model.py:195-202`. -/
noncomputable def varTrain (p : VarandasPar) (fm : ℕ → ℝ) (fmax : ℝ) (st : VarState × ℝ) (tr : ℕ) : VarState × ℝ :=
  let s := st.1.passage fm tr
  (s, st.2 + p.increment fmax s.h)

/-- State of the loop over the cycles: state, `aux`, the values written to `disp`, `rose/model/accumulation_model.py:180-215`. -/
structure VarLoop where
  state : VarState
  aux : ℝ
  out : List ℝ

/-- Body of the loop over the cycles, `rose/model/accumulation_model.py:192-208`. -/
noncomputable def varCycle (p : VarandasPar) (t : Traffic) (fm : ℕ → ℝ) (fmax : ℝ) (l : VarLoop) (n : ℕ) : VarLoop :=
  let st := (t.trainsInCycle n).foldl (varTrain p fm fmax) (l.state, l.aux)
  if n ∈ t.stepsIndex then ⟨st.1, 0, l.out ++ [st.2]⟩ else ⟨st.1, st.2, l.out⟩

/-- The loop, `rose/model/accumulation_model.py:190-210`. -/
noncomputable def varLoop (p : VarandasPar) (t : Traffic) (fm : ℕ → ℝ) (s : VarState) : VarLoop :=
  (List.range t.maxCycles).foldl (varCycle p t fm (maxForce fm t.cycles.length)) ⟨s, 0, []⟩

/-- `np.cumsum`, `rose/model/accumulation_model.py:218`. -/
noncomputable def cumsum (a : ℝ) : List ℝ → List ℝ
  | [] => []
  | x :: xs => (a + x) :: cumsum (a + x) xs

/-- `Varandas.settlement` for one node, `rose/model/accumulation_model.py:121-221`: `s` is the initial state (zero, or the
final state of the previous stage when reloading) and `prev` the previous displacement (zero without reload). `disp` has
as many columns as outputs; those not written stay zero. -/
noncomputable def varandasStage (p : VarandasPar) (t : Traffic) (fm : ℕ → ℝ) (s : VarState) (prev : ℝ) :
    VarState × List ℝ :=
  let l := varLoop p t fm s
  (l.state, (cumsum 0 ((List.range t.outputs).map fun i => l.out.getD i 0)).map fun d => d / 1000 + prev)

/-- `np.zeros` initial state, `rose/model/accumulation_model.py:182-184`. -/
def VarState.zero : VarState := ⟨0, fun _ => 0⟩

/-- A first stage and its continuations (`reload=True`): the displacement of all stages in order. Reading the last
displacement of a stage without outputs raises (`self.displacement[:, -1]`,
`rose/model/accumulation_model.py:154`). -/
noncomputable def varandasContinue (p : VarandasPar) : VarState → List ℝ → List (Traffic × (ℕ → ℝ)) → Except Err (List ℝ)
  | _, last, [] => .ok last
  | s, last, (t, fm) :: rest =>
    match last.getLast? with
    | none => .error .indexError
    | some prev =>
      let r := varandasStage p t fm s prev
      (varandasContinue p r.1 r.2 rest).map (last ++ ·)

/-- A first stage followed by continuations, `rose/model/accumulation_model.py:497-513`. -/
noncomputable def varandasStages (p : VarandasPar) (t : Traffic) (fm : ℕ → ℝ) (rest : List (Traffic × (ℕ → ℝ))) :
    Except Err (List ℝ) :=
  let r := varandasStage p t fm VarState.zero 0
  varandasContinue p r.1 r.2 rest

/-! ### Li & Selig -/

/-- `name.split("_")[-1]`, `rose/model/accumulation_model.py:312`: what follows the last underscore. -/
def lastPart (name : List Char) : List Char := (name.reverse.takeWhile (· ≠ '_')).reverse

/-- `__classify` for one layer, `rose/model/accumulation_model.py:239-245, 303-340`: parameters `a`, `b`, `m`. -/
def classify (name : String) : Except Err (ℚ × ℚ × ℚ) :=
  let c := lastPart name.toList
  if c ∈ ["zg".toList, "zm".toList, "zf".toList] then .ok (64 / 100, 10 / 100, 17 / 10)
  else if c ∈ ["z&s".toList, "zs".toList, "s".toList] then .ok (64 / 100, 10 / 100, 17 / 10)
  else if c ∈ ["z&h".toList, "zk".toList, "k&s".toList, "z&k".toList] then .ok (84 / 100, 13 / 100, 2)
  else if c ∈ ["kz".toList, "k".toList, "sd".toList] then .ok (11 / 10, 16 / 100, 2)
  else if c ∈ ["ko".toList, "k&v".toList, "vk".toList, "v".toList, "o&z".toList] then .ok (12 / 10, 18 / 100, 24 / 10)
  else if c ∈ ["a".toList, "ht".toList] then .ok (0, 0, 0)
  else .error .valueError

/-- `__initial_stress`, `rose/model/accumulation_model.py:292-298`: thickness of layer `i` for top levels `z` and the depth
`zLast` of the last layer. -/
noncomputable def layerThickness (z : List ℝ) (zLast : ℝ) (i : ℕ) : ℝ :=
  |(z ++ [zLast]).getD (i + 1) 0 - (z ++ [zLast]).getD i 0|

/-- Depth of the middle of layer `i`, `rose/model/accumulation_model.py:300`. -/
noncomputable def layerMiddle (z : List ℝ) (zLast : ℝ) (i : ℕ) : ℝ :=
  |z.getD i 0 - z.getD 0 0| + layerThickness z zLast i / 2

/-- `__strength`, `rose/model/accumulation_model.py:342-347` with `sigma_v0 = gamma * z_middle` (line 301) and the friction
angle in degrees (line 288). -/
noncomputable def layerStrength (z : List ℝ) (zLast : ℝ) (gamma phi cohesion : ℝ) (i : ℕ) : ℝ :=
  gamma * layerMiddle z zLast i * Real.tan (phi * (Real.pi / 180)) + cohesion

/-- Half the difference of the principal stresses at one point, `rose/model/accumulation_model.py:371-380`. -/
noncomputable def flamantShear (stress a zMid x : ℝ) : ℝ :=
  let th1 := Real.arctan ((x + a) / zMid)
  let th2 := Real.arctan ((x - a) / zMid)
  let szz := stress / Real.pi * ((th1 - th2) + Real.sin th1 * Real.cos th1 - Real.sin th2 * Real.cos th2)
  let sxx := stress / Real.pi * ((th1 - th2) - Real.sin th1 * Real.cos th1 + Real.sin th2 * Real.cos th2)
  let sxz := stress / Real.pi * (Real.cos th2 ^ 2 - Real.cos th1 ^ 2)
  let s1 := (sxx + szz) / 2 + Real.sqrt (((sxx - szz) / 2) ^ 2 + sxz ^ 2)
  let s2 := (sxx + szz) / 2 - Real.sqrt (((sxx - szz) / 2) ^ 2 + sxz ^ 2)
  (s1 - s2) / 2

/-- `sigma_deviatoric`, `rose/model/accumulation_model.py:349-380`: the maximum over 100 points of a line; `force` is the
largest absolute force of the train at the node. -/
noncomputable def devStress (force length width zMid : ℝ) : ℝ :=
  let stress := force / (length * width) / 1000
  let pts := (linspace (-10 * (width / 2)) (10 * (width / 2)) 100).map (flamantShear stress (width / 2) zMid)
  pts.tail.foldl max (pts.headD 0)

/-- A soil layer as used by the strain law, `rose/model/accumulation_model.py:275-347`. -/
structure LiSeligLayer where
  a : ℝ
  b : ℝ
  m : ℝ
  strength : ℝ
  thickness : ℝ
  zMid : ℝ

/-- A layer of the soil scenario as given by the user: name, unit weight, friction angle in degrees, cohesion, top level
(`__read_SoS`, `rose/model/accumulation_model.py:275-290`). -/
structure SoilLayer where
  name : String
  gamma : ℝ
  phi : ℝ
  cohesion : ℝ
  top : ℝ

/-- Classification, initial stress and strength of all layers of a soil, `rose/model/accumulation_model.py:407-412`. -/
noncomputable def buildLayers (soil : List SoilLayer) (zLast : ℝ) : Except Err (List LiSeligLayer) :=
  (List.range soil.length).mapM fun i =>
    match soil[i]? with
    | none => .error .indexError
    | some l => (classify l.name).map fun p =>
      ⟨(p.1 : ℝ), (p.2.1 : ℝ), (p.2.2 : ℝ), layerStrength (soil.map SoilLayer.top) zLast l.gamma l.phi l.cohesion i,
        layerThickness (soil.map SoilLayer.top) zLast i, layerMiddle (soil.map SoilLayer.top) zLast i⟩

/-- `N`, `rose/model/accumulation_model.py:424-427`: `base` is the number of cycles since construction, `c` the passages of
the train in the period, `M` the number of outputs. -/
noncomputable def liSeligCycles (base : ℝ) (c M j : ℕ) : ℝ := linspaceAt (1 + base) (base + c) M j

/-- The sum over trains and layers, `rose/model/accumulation_model.py:421-433`, at output `j`. -/
noncomputable def liSeligRaw (layers : List LiSeligLayer) (length width base : ℝ) (trains : List (ℕ × ℝ)) (M j : ℕ) : ℝ :=
  (trains.map fun tr => (layers.map fun l =>
    l.a * (devStress tr.2 length width l.zMid / l.strength) ^ l.m * liSeligCycles base tr.1 M j ^ l.b * l.thickness).sum).sum

/-- `LiSelig.settlement` for one node, `rose/model/accumulation_model.py:382-442`; `prev` is the previous displacement (zero
without reload). -/
noncomputable def liSeligStage (layers : List LiSeligLayer) (length width base : ℝ) (trains : List (ℕ × ℝ)) (M : ℕ)
    (prev : ℝ) : List ℝ :=
  (List.range M).map fun j =>
    liSeligRaw layers length width base trains M j - liSeligRaw layers length width base trains M 0 + prev

/-! ### Results -/

/-- `read_traffic`, `rose/model/accumulation_model.py:474-492`: numbers of force nodes per train; the number of nodes. -/
def readTraffic (nodes : List ℕ) : Except Err ℕ :=
  if nodes.dedup.length = 1 then .ok (nodes.headD 0) else .error .valueError

/-- What a settlement calculation of one stage delivers without its history: nodes, output times, displacement per node,
`rose/model/accumulation_model.py:497-513`. -/
structure StageOut where
  nodes : List ℕ
  time : List ℝ
  disp : List (List ℝ)

/-- The state of `AccumulationModel` and of its model object: results (nodes, time, displacement per node) and
`accumulation_model.displacement`; `none` before the first calculation, `rose/model/accumulation_model.py:454-472`. -/
structure AccState where
  nodes : List ℕ
  time : List ℝ
  disp : List (List ℝ)
  last : List (List ℝ)

/-- Adding the previous displacement, `rose/model/accumulation_model.py:152-154, 219-221, 392-394, 440-442`: the last value of
each row is read first. If the numbers of nodes differ the Varandas model raises, if there is at least one cycle (the mask of
line 195 does not fit `h_f`); for Li & Selig NumPy broadcasts a single row over the others, else raises. -/
noncomputable def reloadDisp (varandas : Bool) (last disp : List (List ℝ)) : Except Err (List (List ℝ)) :=
  if last.any List.isEmpty then .error .indexError
  else if last.length = disp.length then .ok (List.zipWith (fun l d => d.map (· + l.getLastD 0)) last disp)
  else if varandas then .error .indexError
  else if disp.length = 1 then .ok (last.map fun l => (disp.getD 0 []).map (· + l.getLastD 0))
  else if last.length = 1 then .ok (disp.map fun d => d.map (· + (last.getD 0 []).getLastD 0))
  else .error .valueError

/-- The rows of `__create_results` when reloading, `rose/model/accumulation_model.py:535-542`: `nodes` rows, the previous row of
the same index followed by the new one. -/
def joinRows (nodes : ℕ) (prev new : List (List ℝ)) : Except Err (List (List ℝ)) :=
  if prev.length < nodes ∨ new.length < nodes then .error .indexError
  else .ok ((List.range nodes).map fun i => prev.getD i [] ++ new.getD i [])

/-- `calculate_settlement` and `__create_results`, `rose/model/accumulation_model.py:497-513, 531-553`: one stage, with or
without reload. Reload without a previous stage raises (`self.displacement` does not exist). -/
noncomputable def accStep (varandas : Bool) (st : Option AccState) (op : StageOut × Bool) : Except Err AccState :=
  if op.2 then
    match st with
    | none => .error .exception
    | some s =>
      match reloadDisp varandas s.last op.1.disp with
      | .error e => .error e
      | .ok d =>
        match joinRows op.1.disp.length s.disp d with
        | .error e => .error e
        | .ok rows => .ok ⟨op.1.nodes, s.time ++ op.1.time, rows, d⟩
  else .ok ⟨op.1.nodes, op.1.time, op.1.disp, op.1.disp⟩

/-- A history of calculations, `rose/model/accumulation_model.py:497-513`. -/
noncomputable def accRun (varandas : Bool) : Option AccState → List (StageOut × Bool) → Except Err (Option AccState)
  | st, [] => .ok st
  | st, op :: ops =>
    match accStep varandas st op with
    | .error e => .error e
    | .ok s => accRun varandas (some s) ops

/-- `os.path.split(file_name)[0]` (Python's library, called at `rose/model/accumulation_model.py:523-524`): what precedes the last component,
without the slashes at its end unless it consists of slashes only. -/
def pathHead (name : List Char) : List Char :=
  let head := (name.reverse.dropWhile (· ≠ '/')).reverse
  if head.all (· = '/') then head else (head.reverse.dropWhile (· = '/')).reverse

/-- `write_results`, `rose/model/accumulation_model.py:515-528`: `dirs` are the existing directories. Returns the
directories after the call; `os.makedirs('')` raises. Two spellings of one directory are two directories here, and parents of a missing directory,
which are created too, are left out; both do not matter for what is proved. -/
def writeResults (dirs : List (List Char)) (name : List Char) : Except Err (List (List Char)) :=
  let head := pathHead name
  if head ∈ dirs then .ok dirs
  else if head = [] then .error .exception
  else .ok (head :: dirs)

end Rose
