import Verif.Model.Workflow
import Verif.Model.Full

set_option linter.unusedSectionVars false

/-!
# Bootstrap samples (`adjustments/bootstrap.py`), dense backend

Triangles with one index entry and one column (several columns are sampled one after the other in the
code).  The hat matrix adjustment `hat` is an arbitrary function of the expected increments (that of the code is
`Boot.hat` in Model/Hat; `none` for
`hat_adj=False` or a matrix that cannot be inverted), `root` is the square root, and
`draw k o d` is the position drawn by `random_state.choice` for cell `(o, d)` of sample `k`.
-/

namespace CL
namespace Boot

/-- `np.sqrt(np.abs(x))`. -/
def rootAbs (root : ℝ → ℝ) : Num ℝ → Num ℝ
  | .fin a => .fin (root |a|)
  | .nan => .nan
  | _ => .pinf

/-- The expected increments (`adjustments/bootstrap.py:101-106`): `f` is the fitted pattern, `t` the
triangle. -/
noncomputable def expected (t f : Tri ℝ) : Except Err (Nat → Nat → Num ℝ) := do
  let g ← Work.validateX t (some f)
  let u ← t.chainladder g none
  let e ← Tri.fullExpectation g.incrToCum u (t.isCum == some true)
  let m ← e.cumToIncr
  if m.values.d2 = t.values.d2 then
    .ok fun o d => (m.values.get 0 0 o d).nanToNum * t.nanTri o d
  else .error .unmodelled

/-- Unscaled residuals (`adjustments/bootstrap.py:128-137`) of the increments `x`; `w` is `w_`, whose first
column is used twice. -/
noncomputable def residual (root : ℝ → ℝ) (w : Arr ℝ) (x m : Nat → Nat → Num ℝ) (o d : Nat) : Num ℝ :=
  (x o d - m o d) / rootAbs root (m o d) * w.get 0 0 o (d - 1)

/-- `scale_` (`adjustments/bootstrap.py:138,143-147`); the design matrix has one column for each origin
and each age but the first (`adjustments/bootstrap.py:178-193`). -/
noncomputable def scale (t : Tri ℝ) (r : Nat → Nat → Num ℝ) : Num ℝ :=
  (∑ d ∈ Finset.range t.values.d3, ∑ o ∈ Finset.range t.values.d2, (r o d).nanToNum * (r o d).nanToNum) /
    ((∑ o ∈ Finset.range t.values.d2, ∑ d ∈ Finset.range t.values.d3, (t.nanTri o d).nanToNum) -
      .fin ((t.values.d2 + (t.values.d3 - 1) : Nat) : ℝ))

/-- The finite residuals other than 0, row by row (`adjustments/bootstrap.py:148-153`). -/
noncomputable def usable (n D : Nat) (r : Nat → Nat → Num ℝ) : List ℝ :=
  ((List.range n).flatMap fun o => (List.range D).map fun d => r o d).filterMap fun x =>
    match x with
    | .fin a => if a = 0 then none else some a
    | _ => none

/-- The residuals to draw from (`adjustments/bootstrap.py:154`): centred. -/
noncomputable def centred (l : List ℝ) : List ℝ := l.map fun a => a - l.sum / (l.length : ℝ)

/-- The samples (`adjustments/bootstrap.py:155-176`).  The index of the samples is their number. -/
noncomputable def samples (root : ℝ → ℝ) (t : Tri ℝ) (m : Nat → Nat → Num ℝ) (pool : List ℝ) (sims : Nat)
    (draw : Nat → Nat → Nat → Nat) : Tri ℝ :=
  { t with
    kdims := (List.range sims).map fun k => [toString k]
    values := ⟨sims, 1, t.values.d2, t.values.d3, fun k _ o d =>
      ∑ e ∈ Finset.range (d + 1),
        (.fin (pool.getD (draw k o e) 0) * (m o e * 0 + 1) * rootAbs root (m o e) + m o e)⟩ }

/-- Attributes of the fitted estimator. -/
structure Fitted where
  w : Arr ℝ
  expected : Nat → Nat → Num ℝ
  residuals : List ℝ
  scale : Num ℝ
  resampled : Tri ℝ

/-- `BootstrapODPSample.fit` (`adjustments/bootstrap.py:71-176`) with parameters `p` for `Development`.
Drawing from an empty list and putting zero samples together raise. -/
noncomputable def fit (root : ℝ → ℝ) (p : Dev.Params ℝ)
    (hat : (Nat → Nat → Num ℝ) → Option (Nat → Nat → Num ℝ)) (sims : Nat) (draw : Nat → Nat → Nat → Nat)
    (t : Tri ℝ) : Except Err Fitted :=
  if t.values.d1 ≠ 1 then .error .unmodelled
  else if t.values.d0 ≠ 1 then .error .valueError
  else if t.isVal then .error .valueError
  else do
    let f ← Dev.fit t p
    let w ← Dev.weights t p
    let m ← expected t f
    let x ← t.cumToIncr
    let r := residual root w (x.values.get 0 0) m
    let s := match hat m with
      | none => r
      | some h => fun o d => h o d * r o d
    let l := usable t.values.d2 t.values.d3 s
    if l = [] ∨ sims = 0 then .error .valueError
    else .ok {
      w := w
      expected := m
      residuals := centred l
      scale := scale t r
      resampled := samples root t m (centred l) sims draw }

end Boot
end CL
