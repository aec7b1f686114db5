import Verif.Model.Munich

/-!
# `MunichAdjustment.transform` (`development/munich.py:122-166`), dense backend

The triangle to transform has the pattern `ldf_` and the deviations `sigma_`: its own, or those that
`Development()` finds for it (`development/munich.py:142-143`).  Indices of another length than that of the
fit, patterns with groups or tails, and the attributes `rho_`, `lambda_` and `lambda_coef_`, which are those
of the fit, are left out.
-/

namespace CL
namespace Munich

/-- What `transform` attaches: the full triangle, `ldf_`, and the values of `sigma_` and `std_err_`. -/
structure Transformed where
  full : Nat → Nat → Nat → Nat → Num ℝ × Num ℝ
  ldf : Tri ℝ
  sigma : Arr ℝ

/-- `MunichAdjustment.transform` (`development/munich.py:122-166`).  `r` is the fit, of which `x` are the
amounts after `fillna` (`p_to_i_X_`); `y` is the new triangle, `f`, `sigma` and `m` its `ldf_`, `sigma_` and
`sigma_interpolation`.  `_get_MCL_model` looks at the amounts of the fit (`development/munich.py:187`).  With
more than one age more than in the fit the loop (`development/munich.py:279-317`) has no coefficient left,
and its columns do not fit into `cdf_`.  Reading `lambda_` (`development/munich.py:369-375`) takes as many
columns as there are in pairs. -/
noncomputable def transform (x : Tri ℝ) (r : Fit) (pairs : List (String × String)) (y f : Tri ℝ)
    (sigma : Arr ℝ) (m : Interp) : Except Err Transformed :=
  let names := pairs.flatMap fun p => [p.1, p.2]
  let n := x.values.d2
  let D := x.values.d3
  if ¬ (y.values.d0 = x.values.d0 ∧ f.values.d0 = y.values.d0 ∧ f.vdims = y.vdims ∧ f.values.d2 = 1 ∧
      f.values.d3 + 1 = y.values.d3) then .error .unmodelled
  else if ¬ ∀ s ∈ names, s ∈ y.vdims then .error .valueError
  else if D + 1 < y.values.d3 then .error .valueError
  else do
    let a := fun k : Nat => y.vdims.idxOf (pairs.getD k ("", "")).1
    let b := fun k : Nat => y.vdims.idxOf (pairs.getD k ("", "")).2
    let P := fun i (k : Nat) => x.values.get i (x.vdims.idxOf (pairs.getD k ("", "")).1)
    let I := fun i (k : Nat) => x.values.get i (x.vdims.idxOf (pairs.getD k ("", "")).2)
    let p := fun i k => (⟨f.values.get i (a k) 0, sigma.get i (a k) 0, rho m n D (P i k) (I i k),
      ratio n (P i k) (I i k), (r.coef i k).1.lam⟩ : Coef ℝ)
    let q := fun i k => (⟨f.values.get i (b k) 0, sigma.get i (b k) 0, rho m n D (I i k) (P i k),
      ratio n (I i k) (P i k), (r.coef i k).2.lam⟩ : Coef ℝ)
    let full := fun i k o => full (y.values.get i (a k) o) (y.values.get i (b k) o) (p i k) (q i k)
    let c := cdfValues y f.incrToCum.values pairs full
    let lr ← y.linkRatio
    let g : Tri ℝ := { f with
      values := ⟨f.values.d0, f.values.d1, y.values.d2, f.values.d3, fun i v o => ldf y.values.d3 (c i v o)⟩
      odims := y.odims
      ddims := lr.ddims
      isPattern := true
      isCum := some false }
    if r.ldf.vdims.length ≠ names.length then .error .valueError
    else .ok ⟨full, g, { g.values with
      get := fun i v o d => g.values.get i v o d * 0 + 1 }⟩

end Munich
end CL
