import Verif.Model.Num
import Mathlib.Data.List.Sort
import Mathlib.Data.List.ProdSigma
import Mathlib.Data.String.Basic

/-!
# `GridSearch` and `Pipeline` (`workflow/gridsearch.py`)

scikit-learn's `ParameterGrid`, `clone` and `Pipeline` and joblib's `Parallel` are not part of the
repository; what is used of them is written down here.  Estimators, models, triangles and parameter
values are arbitrary types.
-/

namespace CL
namespace Search

/-- A Python dictionary: keys in insertion order. -/
abbrev Dict (κ V : Type) := List (κ × V)

section
variable {κ V : Type} [DecidableEq κ]

/-- `d[k] = v`. -/
def Dict.set : Dict κ V → κ → V → Dict κ V
  | [], k, v => [(k, v)]
  | p :: d, k, v => if p.1 = k then (k, v) :: d else p :: Dict.set d k v

/-- `d[k]`. -/
def Dict.get? : Dict κ V → κ → Option V
  | [], _ => none
  | p :: d, k => if p.1 = k then some p.2 else Dict.get? d k

end

/-- `itertools.product` of the values of each key: the last key varies fastest. -/
def product {V : Type} : List (String × List V) → List (Dict String V)
  | [] => [[]]
  | (k, vs) :: rest => vs.flatMap fun v => (product rest).map fun d => (k, v) :: d

/-- scikit-learn's `ParameterGrid`: for every dictionary, the product over its keys in sorted order. -/
def parameterGrid {V : Type} (grids : List (List (String × List V))) : List (Dict String V) :=
  grids.flatMap fun g => product (g.insertionSort fun a b => a.1 ≤ b.1)

/-- The estimator that is searched over (`workflow/gridsearch.py:91-92`): `clone(estimator).set_params(**item)`
gives an estimator of type `E`, and `fit` a model; the triangle and `fit_params` are the same for
every task and belong to `fit`.  A task shares nothing else with the other tasks: `clone` makes a new
estimator and every item of the grid is a dictionary of its own. -/
structure Estimator (V E M : Type) where
  setParams : Dict String V → Except Err E
  fit : E → Except Err M

/-- A task of `Parallel`: `_fit_single_estimator` for one item (`workflow/gridsearch.py:90-95`). -/
inductive Task (V M : Type) where
  | start (item : Dict String V)
  | scoring (model : M) (todo : List (String × (M → V))) (item : Dict String V)
  | done (item : Dict String V)
  | failed (e : Err)

/-- One step of a task: fit, one `item[score] = scoring[score](model)`, or return. -/
def Task.step {V E M : Type} (est : Estimator V E M) (scoring : List (String × (M → V))) : Task V M → Task V M
  | .start item =>
    match est.setParams item >>= est.fit with
    | .error e => .failed e
    | .ok m => .scoring m scoring item
  | .scoring m (s :: todo) item => .scoring m todo (Dict.set item s.1 (s.2 m))
  | .scoring _ [] item => .done item
  | t => t

/-- The tasks of a search, run by any number of workers: `schedule` lists which task takes the next
step. -/
def runTasks {V E M : Type} (est : Estimator V E M) (scoring : List (String × (M → V)))
    (tasks : List (Task V M)) (schedule : List Nat) : List (Task V M) :=
  schedule.foldl (fun ts i => ts.modify i (Task.step est scoring)) tasks

/-- The value a task returns. -/
def Task.result? {V M : Type} : Task V M → Option (Except Err (Dict String V))
  | .done item => some (.ok item)
  | .failed e => some (.error e)
  | _ => none

/-- `GridSearch.fit` (`workflow/gridsearch.py:84-101`): the rows of `results_`, in the order of the grid,
once every task has returned; the exception of a task is raised.  The argument `error_score` is not
used by the code. -/
def gridSearch {V E M : Type} (est : Estimator V E M) (grids : List (List (String × List V)))
    (scoring : List (String × (M → V))) (_errorScore : Option V) (schedule : List Nat) :
    Option (Except Err (List (Dict String V))) :=
  let ts := runTasks est scoring ((parameterGrid grids).map Task.start) schedule
  (ts.mapM Task.result?).map fun rs => rs.mapM id

/-! ## Pipeline -/

/-- Keyword arguments. -/
abbrev Kw (W : Type) := Dict (List Char) W

/-- A step of a pipeline: a name and an estimator, whose methods take a triangle and keyword
arguments. -/
structure Step (X M P W : Type) where
  name : List Char
  fitTransform : X → Kw W → Except Err (M × X)
  fit : X → Kw W → Except Err M
  transform : M → X → Except Err X
  predict : M → X → Kw W → Except Err P

/-- `pname.split("__", 1)`. -/
def splitName : List Char → Option (List Char × List Char)
  | [] => none
  | [_] => none
  | c :: d :: r =>
    if c = '_' ∧ d = '_' then some ([], r)
    else (splitName (d :: r)).map fun p => (c :: p.1, p.2)

/-- Where one keyword argument of `fit` goes (scikit-learn's `Pipeline._check_fit_params`): an argument
without `__` is a `ValueError`, one for an unknown step a `KeyError`. -/
def routeOne {W : Type} (names : List (List Char)) (p : List Char × W) :
    Except Err (List Char × List Char × W) :=
  match splitName p.1 with
  | none => .error .valueError
  | some (s, k) => if names.contains s then .ok (s, k, p.2) else .error .keyError

/-- The keyword arguments of the step `name`. -/
def forStep {W : Type} (name : List Char) (routed : List (List Char × List Char × W)) : Kw W :=
  (routed.filter fun p => p.1 == name).map (·.2)

/-- scikit-learn's `Pipeline._fit` and `fit`: every step but the last transforms, the last is fitted. -/
def runSteps {X M P W : Type} (routed : List (List Char × List Char × W)) :
    List (Step X M P W) → X → Except Err (List M)
  | [], _ => .ok []
  | [s], x => do
    let m ← s.fit x (forStep s.name routed)
    .ok [m]
  | s :: rest, x => do
    let my ← s.fitTransform x (forStep s.name routed)
    let ms ← runSteps routed rest my.2
    .ok (my.1 :: ms)

/-- The string `"sample_weight"`. -/
def sampleWeight : List Char := ['s', 'a', 'm', 'p', 'l', 'e', '_', 'w', 'e', 'i', 'g', 'h', 't']

/-- The keyword that carries the sample weight to the step `name` (`workflow/gridsearch.py:148`). -/
def weightKey (name : List Char) : List Char := name ++ '_' :: '_' :: sampleWeight

/-- The keyword arguments given to scikit-learn's `fit` (`workflow/gridsearch.py:145-148`); a sample
weight is a triangle with at least one index, which Python takes for true. -/
def fitKw {X M P W : Type} (steps : List (Step X M P W)) (w : Option W) (kw : Kw W) : Kw W :=
  match w with
  | none => kw
  | some w => steps.foldl (fun d s => Dict.set d (weightKey s.name) w) kw

/-- `Pipeline.fit` (`workflow/gridsearch.py:144-149`).  scikit-learn checks the names of the steps: no
repetition and no `__` in a name. -/
def pipelineFit {X M P W : Type} (steps : List (Step X M P W)) (x : X) (w : Option W) (kw : Kw W) :
    Except Err (List M) :=
  let names := steps.map (·.name)
  if steps.isEmpty ∨ ¬ names.Nodup ∨ names.any fun n => (splitName n).isSome then .error .valueError
  else do
    let routed ← (fitKw steps w kw).mapM (routeOne names)
    runSteps routed steps x

/-- scikit-learn's `Pipeline.predict`: transform by every step but the last, predict with the last. -/
def runPredict {X M P W : Type} (kw : Kw W) : List (Step X M P W × M) → X → Except Err P
  | [], _ => .error .valueError
  | [s], x => s.1.predict s.2 x kw
  | s :: rest, x => do
    let y ← s.1.transform s.2 x
    runPredict kw rest y

/-- The keyword arguments of `predict` (`workflow/gridsearch.py:152-154`). -/
def predictKw {W : Type} (w : Option W) (kw : Kw W) : Kw W :=
  match w with
  | none => kw
  | some w => Dict.set kw sampleWeight w

/-- `Pipeline.predict` (`workflow/gridsearch.py:151-155`). -/
def pipelinePredict {X M P W : Type} (steps : List (Step X M P W)) (ms : List M) (x : X) (w : Option W)
    (kw : Kw W) : Except Err P :=
  runPredict (predictKw w kw) (steps.zip ms) x

/-- `Pipeline.fit_predict` (`workflow/gridsearch.py:157-159`). -/
def pipelineFitPredict {X M P W : Type} (steps : List (Step X M P W)) (x : X) (w : Option W) (kw : Kw W) :
    Except Err P := do
  let ms ← pipelineFit steps x w kw
  pipelinePredict steps ms x w kw

end Search
end CL
