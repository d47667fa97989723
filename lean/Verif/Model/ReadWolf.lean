/-
Model of `read_wolf`, `run_rose/read_wolf.py`. Opening a file and parsing json are a parameter.
-/
import Verif.Model.BatchRun

set_option linter.unusedSectionVars false

namespace Rose

/-- `os.path.basename(file_name)` on a posix system, `run_rose/read_wolf.py:7`: what follows the last slash. -/
def baseName (p : Name) : Name := (p.reverse.takeWhile fun c => c ≠ '/').reverse

/-- `os.path.splitext(base)` of a name without slash, `run_rose/read_wolf.py:8,10`: the part before the last dot, and the rest from this dot on.
Dots at the beginning of the name do not begin an extension. -/
def splitExt (s : Name) : Name × Name :=
  match s.reverse.dropWhile (fun c => c ≠ '.') with
  | [] => (s, [])
  | _ :: before =>
    if before.all (fun c => c = '.') then (s, [])
    else (before.reverse, '.' :: (s.reverse.takeWhile fun c => c ≠ '.').reverse)

variable {K : Type} [Field K] [LinearOrder K]

/-- `data[key][0]`, `run_rose/read_wolf.py:16-18`. -/
def firstValue (data : PyDict Name (List K)) (key : Name) : Except Err K := do
  let values ← data.get key
  match values with
  | [] => .error .indexError
  | x :: _ => .ok x

/-- The record of one file, `run_rose/read_wolf.py:12-18`: `load` opens and parses the file. -/
def wolfRecord (load : Name → Except Err (PyDict Name (List K))) (file : Name) : Except Err (WolfResult K) := do
  let data ← load file
  let omega ← firstValue data "omega".toList
  let stiffness ← firstValue data "stiffness".toList
  let damping ← firstValue data "damping".toList
  return ⟨(splitExt (baseName file)).1, omega, stiffness, damping⟩

/-- `read_wolf`, `run_rose/read_wolf.py:4-20`: the loop over the files; those with another extension are passed over. -/
def readWolf (load : Name → Except Err (PyDict Name (List K))) : List Name → Except Err (List (WolfResult K))
  | [] => .ok []
  | file :: files =>
    if (splitExt (baseName file)).2 = ".json".toList then do
      let r ← wolfRecord load file
      let rs ← readWolf load files
      return r :: rs
    else readWolf load files

end Rose
