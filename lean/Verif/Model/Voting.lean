import Verif.Model.Predict

/-!
# `VotingChainladder` (`workflow/voting.py`), dense backend

Joblib runs the fits in any order and returns them in the order of the list; the sample weight is part
of the members.  Weight arrays with fewer than two or more than four axes are left out.
-/

namespace CL
variable {K : Type} [Field K] [LinearOrder K] [IsStrictOrderedRing K]

/-- A chainladder method: fitting it on a triangle gives what `predict(X).ultimate_` computes. -/
structure Member (K : Type) where
  fit : Tri K → Except Err (Tri K → Except Err (Tri K))

/-- The array `weights_` (without the axis appended by `fit`), with axes origin and member, possibly
preceded by column or by index and column. -/
inductive Weights (K : Type) where
  | mat (n m : Nat) (get : Nat → Nat → Num K)
  | cube (v n m : Nat) (get : Nat → Nat → Nat → Num K)
  | full (k v n m : Nat) (get : Nat → Nat → Nat → Nat → Num K)

namespace Weights

/-- `weights_.shape[-3]`. -/
def origins : Weights K → Nat
  | mat n _ _ => n
  | cube _ n _ _ => n
  | full _ _ n _ _ => n

/-- `weights_.shape[-2]`. -/
def members : Weights K → Nat
  | mat _ m _ => m
  | cube _ _ m _ => m
  | full _ _ _ m _ => m

/-- `np.array` of one row of weights per origin; rows of different lengths are a `ValueError`. -/
def ofRows (rows : List (List (Num K))) : Except Err (Weights K) :=
  match rows with
  | [] => .error .indexError
  | r :: _ =>
    if rows.all fun x => x.length == r.length then
      .ok (mat rows.length r.length fun o j => (rows.getD o []).getD j .nan)
    else .error .valueError

/-- `_broadcast_weights` (`workflow/voting.py:90-95`) and `weights[..., j, :]`, as an array against
which the ultimate of `x` broadcasts. -/
def slice (w : Weights K) (x : Tri K) (j : Nat) : Arr K :=
  match w with
  | mat n _ get => ⟨1, x.values.d1, n, 1, fun _ _ o _ => get o j⟩
  | cube v n _ get => ⟨x.values.d0, v, n, 1, fun _ c o _ => get c o j⟩
  | full k v n _ get => ⟨k, v, n, 1, fun i c o _ => get i c o j⟩

/-- `weights.sum(axis=-2)`. -/
def total (w : Weights K) (x : Tri K) : Arr K :=
  match w with
  | mat n m get => ⟨1, x.values.d1, n, 1, fun _ _ o _ => ∑ j ∈ Finset.range m, get o j⟩
  | cube v n m get => ⟨x.values.d0, v, n, 1, fun _ c o _ => ∑ j ∈ Finset.range m, get c o j⟩
  | full k v n m get => ⟨k, v, n, 1, fun i c o _ => ∑ j ∈ Finset.range m, get i c o j⟩

/-- The check of a weight array with all axes (`workflow/voting.py:296-306`). -/
def fits (w : Weights K) (x : Tri K) : Bool :=
  match w with
  | full k v _ _ _ => k == x.values.d0 && v == x.values.d1
  | _ => true

end Weights

/-- The argument `weights`. -/
inductive WeightArg (K : Type) where
  | default
  | array (w : Weights K)
  | callable (f : Int → List (Num K))
  | dict (items : List (Int × List (Num K)))

/-- `_coerce_assum_vector_to_array` (`workflow/voting.py:50-88`); `d` is the default weighting. -/
def WeightArg.coerce (w : WeightArg K) (d : List (Num K)) (t : Tri K) : Except Err (Weights K) :=
  match w with
  | .default => .ok (.mat t.values.d3 d.length fun _ j => d.getD j .nan)
  | .array w => .ok w
  | .callable f => Weights.ofRows (t.odims.map f)
  | .dict items =>
    if items.all fun p => t.odims.contains p.1 then
      Weights.ofRows (t.odims.map fun o => ((items.find? fun p => p.1 == o).map (·.2)).getD d)
    else .error .indexError

/-- A fitted `VotingChainladder`. -/
structure Voting (K : Type) where
  weights : Weights K
  fitted : List (Tri K → Except Err (Tri K))

/-- `VotingChainladder.fit` without the ultimate (`workflow/voting.py:22-41,101-144`); a member `none` is
`'drop'`. -/
def votingFit (ests : List (Option (Member K))) (w : WeightArg K) (d : Option (List (Num K)))
    (t : Tri K) : Except Err (Voting K) :=
  if ests = [] then .error .valueError
  else do
    let d := d.getD (List.replicate ests.length 1)
    let ws ← w.coerce d t
    if ws.origins ≠ t.values.d2 then .error .valueError
    else if ws.members ≠ ests.length then .error .valueError
    else do
      let fitted ← (ests.filterMap id).mapM fun e => e.fit t
      .ok ⟨ws, fitted⟩

/-- `sum` of triangles: `0 + a` is `a` (`core/dunders.py:254-255`), and without any it is the number 0. -/
def sumTris (us : List (Tri K)) : Except Err (Option (Tri K)) :=
  match us with
  | [] => .ok none
  | u :: us => do
    let s ← us.foldlM Tri.add u
    .ok (some s)

/-- `_get_ultimate` (`workflow/voting.py:292-313`), which is `predict(X).ultimate_`
(`workflow/voting.py:256-282`); without members the result is an array, not a
triangle. -/
def Voting.ultimate (v : Voting K) (x : Tri K) : Except Err (Option (Tri K)) :=
  if v.weights.fits x then do
    let us ← v.fitted.zipIdx.mapM fun p => do
      let u ← p.1 x
      u.mulArr (v.weights.slice x p.2)
    let s ← sumTris us
    match s with
    | none => .ok none
    | some s => do
      let r ← s.divArr (v.weights.total x)
      .ok (some r)
  else .error .valueError

/-- `VotingChainladder.fit(X).ultimate_` (`workflow/voting.py:219-241`). -/
def votingUltimate (ests : List (Option (Member K))) (w : WeightArg K) (d : Option (List (Num K)))
    (t : Tri K) : Except Err (Option (Tri K)) := do
  let v ← votingFit ests w d t
  v.ultimate t

end CL
