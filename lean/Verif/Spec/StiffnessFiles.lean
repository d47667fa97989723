/-
Specification for reading the files with the dynamic stiffness: independent of how a path is taken apart.
-/
import Verif.Model.Batch

set_option linter.unusedSectionVars false

namespace Rose.Spec

/-- `file` is the json file called `stem` in the directory `dir`: the directory is empty or ends in a slash, the stem has no slash and is
not empty or made of dots only. -/
structure StiffnessFile (dir stem file : Name) : Prop where
  path : file = dir ++ stem ++ ".json".toList
  directory : dir = [] ∨ ∃ d, dir = d ++ ['/']
  noSlash : '/' ∉ stem
  named : ∃ c ∈ stem, c ≠ '.'

/-- `file` is a json file. -/
def IsStiffnessFile (file : Name) : Prop := ∃ dir stem, StiffnessFile dir stem file

/-- `x` is the first of the values which the contents of a file list under `key`. -/
def FirstListed {K : Type} (data : PyDict Name (List K)) (key : Name) (x : K) : Prop := ∃ rest, data.get? key = some (x :: rest)

end Rose.Spec
