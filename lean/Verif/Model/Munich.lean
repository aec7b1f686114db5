import Verif.Model.Tails
import Verif.Model.Methods
import Verif.Model.Regression

/-!
# `MunichAdjustment` (`development/munich.py`), dense backend

`ldf_` and `sigma_` of the triangle are given.  They have one row and one column for each age but
the last, as after `Development()`; other patterns (groups, tails) are left out.
-/

namespace CL
namespace Munich
open Reg

section
variable {K : Type} [Field K] [LinearOrder K] [IsStrictOrderedRing K]

/-- What the projection of one side (paid or incurred) uses, for one index and one pair of columns. -/
structure Coef (K : Type) where
  ldf : Nat → Num K
  sigma : Nat → Num K
  rho : Nat → Num K
  q : Nat → Num K
  lam : Num K

/-- The projection from age `j` to the next (`development/munich.py:280-299`). -/
def Coef.project (c : Coef K) (j : Nat) (own other : Num K) : Num K :=
  (c.ldf j + c.lam * c.sigma j / c.rho j * (other / own - c.q j)) * own

/-- The known amount or else the projection (`development/munich.py:303-305,311-313`). -/
def keep (x projection : Num K) : Num K := x.nanToNum + (1 - (x * 0 + 1).nanToNum) * projection

/-- `_get_munich_full_triangle_` (`development/munich.py:273-318`) for one origin: paid and incurred at
each age. -/
def full (P I : Nat → Num K) (p i : Coef K) : Nat → Num K × Num K
  | 0 => ((P 0).nanToNum, I 0)
  | j + 1 =>
    let f := full P I p i j
    (keep (P (j + 1)) (p.project j f.1 f.2), keep (I (j + 1)) (i.project j f.2 f.1))

/-- `slope_` in `_get_MCL_model` (`development/munich.py:186-195`): the regression of `y` on `x` at age
`d`, with weights `1 / x`. -/
def ratio (n : Nat) (x y : Nat → Nat → Num K) (d : Nat) : Num K :=
  origSlope n (fun o => 1 / x o d) (fun o => x o d) (fun o => y o d)

/-- The square of `sigma_` in `_get_MCL_model`. -/
def ratioMse (n : Nat) (x y : Nat → Nat → Num K) (d : Nat) : Num K :=
  origMse n (fun o => 1 / x o d) (fun o => x o d) (fun o => y o d)

/-- `_get_mcl_cdf` (`development/munich.py:330`) for one origin of one column: `D` ages. -/
def cdf (D : Nat) (f : Nat → Num K) (d : Nat) : Num K := f (D - 1) / f d

/-- `_set_ldf` (`development/munich.py:343-347`) for one origin of one column. -/
def ldf (D : Nat) (c : Nat → Num K) (d : Nat) : Num K := c d / if d + 1 < D - 1 then c (d + 1) else 1

/-- `missing` (`development/munich.py:84`). -/
def missing (x : Tri K) (i c o d : Nat) : Bool := ((x.values.get i c o d).nanToNum * x.nanTri o d).eqb 0

/-- The zeros and gaps of the triangle (`development/munich.py:84-100`): they are filled from the array
`fill` (the expected triangle of the chain ladder) with `fillna=True`, and otherwise they raise. -/
def prepare (x : Tri K) (fill : Option (Arr K)) : Except Err (Tri K) :=
  if ∃ i < x.values.d0, ∃ c < x.values.d1, ∃ o < x.values.d2, ∃ d < x.values.d3,
      missing x i c o d = true then
    match fill with
    | none => .error .valueError
    | some a => .ok { x with
        values := { x.values with
          get := fun i c o d => if missing x i c o d then a.get i c o d else x.values.get i c o d } }
  else .ok x

/-- `nans` (`development/munich.py:217`): 1 at the known cells before the latest diagonal. -/
def nans (x : Tri K) : Except Err (Nat → Nat → Num K) := do
  let l ← x.getVal (· == x.vd)
  let z ← x.sub l
  .ok fun o d => z.values.get 0 0 o d * 0 + 1

/-- `w` of `_get_MCL_lambda` (`development/munich.py:238-240`). -/
def weight (r : Num K) : Num K := (if r.eqb 0 then .nan else r) * 0 + 1

/-- The slopes of `_get_MCL_lambda` (`development/munich.py:241-259`): `n` rows and `m` columns of
residuals `r` of the ratios between ages, `s` of the paid to incurred ratios; `w` are the residuals that
decide on the weights. -/
def lambda (n m : Nat) (w r s : Nat → Nat → Num K) : Num K :=
  origSlope (n * m) (fun f => weight (w (f / m) (f % m))) (fun f => s (f / m) (f % m))
    (fun f => r (f / m) (f % m))

end

/-- `sigma_interpolation`. -/
inductive Interp where
  | logLinear | mack
  deriving DecidableEq

/-- `np.minimum`. -/
noncomputable def npMin (a b : Num ℝ) : Num ℝ :=
  if a.isNan || b.isNan then .nan else if b.ltb a then b else a

/-- `sigma_fill` (`utils/weighted_regression.py:98-169`) of a row of length `n`. -/
noncomputable def Interp.fill (m : Interp) (n : Nat) (y : Nat → Num ℝ) (d : Nat) : Num ℝ :=
  let y0 := fun d => if (y d).eqb 0 then .fin (1 / 10 ^ 320) else y d
  match m with
  | .logLinear =>
    let ly := fun d => Tail.log (y0 d)
    let w := fun d => (ly d * 0 + 1).nanToNum
    let x := fun d : Nat => .fin ((d : ℝ) + 1)
    let fill := Tail.exp (x d * slope n w x ly + intercept n w x ly) * (1 - w d)
    ((y d).nanToNum + fill.nanToNum).numToNan
  | .mack =>
    let w := fun d => (y0 d * 0 + 1).nanToNum
    let a := npMin ((y0 (d - 1)).npow 4 / (y0 (d - 2)).npow 2)
      (npMin ((y0 (d - 2)).npow 2) ((y0 (d - 1)).npow 2))
    let fill := if d < 2 then w d else (Tail.sqrt (if a.ltb 0 then -a else a)).nanToNum
    ((y0 d).nanToNum + fill * (1 - w d)).numToNan

/-- `rho_sigma_` (`development/munich.py:186-195`) with `n` origins and `D` ages. -/
noncomputable def rho (m : Interp) (n D : Nat) (x y : Nat → Nat → Num ℝ) : Nat → Num ℝ :=
  m.fill D fun d => Tail.sqrt (ratioMse n x y d)

/-- `residP`, `residI` (`development/munich.py:205-216`). -/
noncomputable def resid (ata : Nat → Nat → Num ℝ) (ldf sigma : Nat → Num ℝ) (x : Nat → Nat → Num ℝ)
    (o d : Nat) : Num ℝ := (ata o d - ldf d) / sigma d * Tail.sqrt (x o d)

/-- `q_resid`, `q_inv_resid` (`development/munich.py:218-229`). -/
noncomputable def ratioResid (x y : Nat → Nat → Num ℝ) (q rho : Nat → Num ℝ) (nans : Nat → Nat → Num ℝ)
    (o d : Nat) : Num ℝ := (y o d / x o d - q d) / rho d * Tail.sqrt (x o d) * nans o d

/-- A fitted `MunichAdjustment`, by index and pair for paid and for incurred: the coefficients, the
attributes `residual_` and `q_resid_`, the full triangle, and `ldf_`. -/
structure Fit where
  coef : Nat → Nat → Coef ℝ × Coef ℝ
  residual : Nat → Nat → (Nat → Nat → Num ℝ) × (Nat → Nat → Num ℝ)
  qResid : Nat → Nat → (Nat → Nat → Num ℝ) × (Nat → Nat → Num ℝ)
  full : Nat → Nat → Nat → Nat → Num ℝ × Num ℝ
  ldf : Tri ℝ

/-- The full triangle of the column `name`, if it is part of a pair. -/
def column (pairs : List (String × String)) (full : Nat → Nat → Nat → Nat → Num ℝ × Num ℝ) (name : String) :
    Option (Nat → Nat → Nat → Num ℝ) :=
  match pairs.findIdx? fun p => p.1 = name with
  | some k => some fun i o d => (full i k o d).1
  | none => match pairs.findIdx? fun p => p.2 = name with
    | some k => some fun i o d => (full i k o d).2
    | none => none

/-- The values of `_get_mcl_cdf` (`development/munich.py:320-341`) from those of `cdf_`. -/
noncomputable def cdfValues (x : Tri ℝ) (base : Arr ℝ) (pairs : List (String × String))
    (full : Nat → Nat → Nat → Nat → Num ℝ × Num ℝ) (i c o : Nat) : Nat → Num ℝ :=
  match column pairs full (x.vdims.getD c "") with
  | some f => cdf x.values.d3 (f i o)
  | none => fun d => base.get i c 0 d

/-- `MunichAdjustment.fit` (`development/munich.py:61-121`); `f` is `ldf_`, `sigma` the values of
`sigma_`.  The arrays of residuals only fit together when the link ratios lose one origin and one age
(`development/munich.py:205-216`).  The paired columns have to be the first of the triangle: `_reshape`
looks up the columns `0, …, len(_map) - 1` in `_map` (`development/munich.py:114-118,357-367`). -/
noncomputable def fit (x f : Tri ℝ) (sigma : Arr ℝ) (m : Interp) (pairs : List (String × String))
    (fill : Option (Arr ℝ)) : Except Err Fit :=
  let names := pairs.flatMap fun p => [p.1, p.2]
  if pairs = [] then .error .valueError
  else do
    let x ← prepare x fill
    if ¬ names.Nodup ∨ ¬ (f.values.d0 = x.values.d0 ∧ f.vdims = x.vdims ∧ f.values.d2 = 1 ∧
        f.values.d3 + 1 = x.values.d3) then .error .unmodelled
    else if ¬ ∀ s ∈ names, s ∈ x.vdims then .error .valueError
    else do
      let lr ← x.linkRatio
      let n := x.values.d2
      let D := x.values.d3
      if lr.values.d2 + 1 ≠ n ∧ lr.values.d2 ≠ 1 ∧ n ≠ 2 ∨ lr.values.d3 + 1 ≠ D ∧ lr.values.d3 ≠ 1 ∧ D ≠ 2 then
        .error .valueError
      else if lr.values.d2 + 1 ≠ n ∨ lr.values.d3 + 1 ≠ D then .error .unmodelled
      else do
        let nans ← nans x
        if ¬ ∀ s ∈ names, x.vdims.idxOf s < names.length then .error .keyError else
        let a := fun k : Nat => x.vdims.idxOf (pairs.getD k ("", "")).1
        let b := fun k : Nat => x.vdims.idxOf (pairs.getD k ("", "")).2
        let P := fun i k => x.values.get i (a k)
        let I := fun i k => x.values.get i (b k)
        let qI := fun i k => ratio n (I i k) (P i k)
        let rP := fun i k => rho m n D (P i k) (I i k)
        let rI := fun i k => rho m n D (I i k) (P i k)
        let residual := fun i k =>
          (resid (lr.values.get i (a k)) (f.values.get i (a k) 0) (sigma.get i (a k) 0) (P i k),
            resid (lr.values.get i (b k)) (f.values.get i (b k) 0) (sigma.get i (b k) 0) (I i k))
        let qResid := fun i k =>
          (ratioResid (P i k) (I i k) (fun d => 1 / qI i k d) (rP i k) nans,
            ratioResid (I i k) (P i k) (qI i k) (rI i k) nans)
        let lam := fun i k => lambda (n - 1) (D - 1) (residual i k).2
        let coef := fun i k =>
          ((⟨f.values.get i (a k) 0, sigma.get i (a k) 0, rP i k, ratio n (P i k) (I i k),
              lam i k (residual i k).1 (qResid i k).1⟩,
            ⟨f.values.get i (b k) 0, sigma.get i (b k) 0, rI i k, qI i k,
              lam i k (residual i k).2 (qResid i k).2⟩) : Coef ℝ × Coef ℝ)
        let full := fun i k o => full (P i k o) (I i k o) (coef i k).1 (coef i k).2
        let c := cdfValues x f.incrToCum.values pairs full
        .ok ⟨coef, residual, qResid, full, { f with
          values := ⟨f.values.d0, f.values.d1, n, f.values.d3, fun i v o => ldf D (c i v o)⟩
          odims := x.odims
          ddims := lr.ddims
          isPattern := true
          isCum := some false
          vd := ultVal }⟩

end Munich
end CL
