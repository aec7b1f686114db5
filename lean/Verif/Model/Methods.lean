import Verif.Model.Filter
import Verif.Model.Convert
import Mathlib.Data.List.Sort
import Mathlib.Data.List.Lex
import Mathlib.Data.String.Basic

/-!
# Reserving methods (`methods/`), dense backend

Input triangles are development triangles (`validate_X` converts valuation triangles first) that
already carry a pattern `ldf_` (the argument `f`).  Process variance, which is only computed for
bootstrap samples, is not modelled, and neither are virtual columns.
-/

namespace CL

namespace Agg
variable {K : Type} [Field K] [LinearOrder K] [IsStrictOrderedRing K]

/-- `a * b` for results of aggregations, which are numbers when they have a single cell. -/
def mul : Agg K → Agg K → Except Err (Agg K)
  | .tri a, .tri b => do
    let r ← a.mul b
    .ok (.tri r)
  | .tri a, .scalar x => do
    let r ← a.mulArr (Arr.scalar x)
    .ok (.tri r)
  | .scalar x, .tri b => do
    let r ← b.mulArr (Arr.scalar x)
    .ok (.tri r)
  | .scalar x, .scalar y => .ok (.scalar (x * y))

end Agg

namespace Tri
variable {K : Type} [Field K] [LinearOrder K] [IsStrictOrderedRing K]

/-- `nan_triangle` as an array (`core/base.py:207-219`). -/
def nanTriArr (t : Tri K) : Arr K := ⟨1, 1, t.values.d2, t.values.d3, fun _ _ o d => t.nanTri o d⟩

/-- The variable `a` of `_align_cdf` (`methods/base.py:30-31`):
`a = X.iloc[0, 0] * 0; a = a + a.nan_triangle`. -/
def alignOnes (t : Tri K) : Except Err (Tri K) := do
  let a ← t.iloc (.int 0) (.int 0) (.slc .all) (.slc .all)
  let a ← a.mulArr (Arr.scalar 0)
  a.addArr a.nanTriArr

/-- `_align_cdf` (`methods/base.py:26-40`); `f` is `X.ldf_`, so `f.incrToCum` is `X.cdf_`
(`core/common.py:79-84`). -/
def alignCdf (t f : Tri K) (w : Option (Tri K)) : Except Err (Agg K) := do
  let cdf ← f.incrToCum.ilocD (.upto (t.values.d3 : Int))
  let a ← t.alignOnes
  let x ← t.mul a
  let x ← match w with
    | none => pure x
    | some w => do
      let y ← w.mul a
      x.add y
  let r ← x.div x
  let r ← r.mul cdf
  ({ r with vd := t.vd } : Tri K).latestDiagonal

/-- `_set_ult_attr` (`methods/base.py:42-55`); a number has none of the attributes used. -/
def setUlt : Agg K → Except Err (Tri K)
  | .scalar _ => .error .attributeError
  | .tri u => .ok { u with
      values := u.values.map fun x => if x.isFinite then x else .nan
      ddims := [ultVal]
      isVal := true
      isCum := some true
      vd := ultVal }

/-- `Chainladder._get_ultimate` (`methods/chainladder.py:63-74`).  The branch for incremental
triangles goes through `val_to_dev` and is not modelled. -/
def chainladder (t f : Tri K) (w : Option (Tri K)) : Except Err (Tri K) :=
  if t.isVal = true ∨ t.isCum = some false then .error .unmodelled
  else do
    let ld ← t.latestDiagonal
    let cdf ← t.alignCdf f w
    let u ← ld.mul cdf
    setUlt u

/-- `ibnr_` (`core/common.py:93-105`) of a cumulative triangle `t` with ultimate `u`. -/
def ibnr (u t : Tri K) : Except Err (Tri K) := do
  let ld ← t.latestDiagonal
  let r ← match ld with
    | .tri l => u.sub l
    | .scalar x => u.subArr (Arr.scalar x)
  .ok { r with vdims := u.vdims }

/-- Positions of the index in sorted order, `self.index.sort_values(self.key_labels).index`.  The
index has no repeated key, so that the algorithm used by pandas does not matter. -/
def sortPositions (kdims : List (List String)) : List Nat :=
  (List.range kdims.length).insertionSort fun i j => kdims.getD i [] ≤ kdims.getD j []

/-- `sort_index` (`core/pandas.py:325-326`). -/
def sortIndex (t : Tri K) : Except Err (Tri K) :=
  t.iloc (.lst ((sortPositions t.kdims).map fun i : Nat => (i : Int))) (.slc .all) (.slc .all)
    (.slc .all)

/-- `q ** ((q + 1e-16) / (q + 1e-16) * k)` (`methods/benktander.py:127`): the exponent is missing when
`q` is missing or `q + 1e-16` is zero, and `k` otherwise. -/
def benkPow (q : Num K) (k : Nat) : Num K :=
  match (q + .fin (1 / 10 ^ 16)) / (q + .fin (1 / 10 ^ 16)) * .fin (k : K) with
  | .fin _ => q.npow k
  | _ => .nan

/-- The array of ultimates (`methods/benktander.py:123-130`) from the arrays of the aligned factors, the
latest diagonal and the expectation. -/
def benkArr (n : Nat) (cdf ld e : Arr K) : Except Err (Arr K) := do
  let q := cdf.map fun x => 1 - 1 / x.numToNan
  let a ← Arr.zip (· * ·) (q.map fun x => ∑ k ∈ Finset.range n, (benkPow x k).nanToNum)
    (ld.map Num.nanToNum)
  let b ← Arr.zip (· * ·) (q.map fun x => (benkPow x n).nanToNum) (e.map Num.nanToNum)
  let r ← Arr.zip (· + ·) a b
  .ok (r.map Num.numToNan)

/-- `Benktander.fit` (`methods/benktander.py:45-68,92-135`) with `apriori_sigma = 0`, including
`_get_benktander_aprioris` and `_get_ultimate`; `n` is `n_iters`.  `BornhuetterFerguson.fit`
(`methods/bornferg.py:46-67`) sets it to 1 and `ExpectedLoss.fit` (`methods/expectedloss.py:46-67`)
to 0.  The branch for incremental triangles goes through `val_to_dev` and is not modelled. -/
def benktander (t f : Tri K) (w : Option (Tri K)) (apriori : K) (n : Nat) : Except Err (Tri K) :=
  match w with
  | none => .error .valueError
  | some w =>
    if t.isVal = true ∨ t.isCum = some false then .error .unmodelled
    else do
      let e ← w.mulArr (Arr.scalar (.fin apriori))
      let ld ← t.latestDiagonal
      let cdf ← t.alignCdf f (some e)
      match cdf, ld with
      | .tri cdf, .tri ld => do
        let cdf ← cdf.sortIndex
        let ld ← ld.sortIndex
        let e ← e.sortIndex
        let u ← t.sortIndex
        let r ← benkArr n cdf.values ld.values e.values
        setUlt (.tri { u with values := r })
      | _, _ => .error .attributeError

/-- `BornhuetterFerguson.fit` (`methods/bornferg.py:46-67`). -/
def bornhuetterFerguson (t f : Tri K) (w : Option (Tri K)) (apriori : K) : Except Err (Tri K) :=
  t.benktander f w apriori 1

/-- `ExpectedLoss.fit` (`methods/expectedloss.py:46-67`). -/
def expectedLoss (t f : Tri K) (w : Option (Tri K)) (apriori : K) : Except Err (Tri K) :=
  t.benktander f w apriori 0

end Tri
end CL
