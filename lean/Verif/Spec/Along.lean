import Verif.Model.Tri

/-! # Cells addressed by axis -/

namespace CL

/-- A position in a four-dimensional array. -/
abbrev Pos := Tri.Axis → Nat

/-- Move to coordinate `j` on axis `ax`. -/
def Pos.set (p : Pos) (ax : Tri.Axis) (j : Nat) : Pos := fun b => if b = ax then j else p b

namespace Arr
variable {K : Type}

def dim (a : Arr K) : Tri.Axis → Nat
  | .index => a.d0
  | .columns => a.d1
  | .origin => a.d2
  | .development => a.d3

def cell (a : Arr K) (p : Pos) : Num K :=
  a.get (p .index) (p .columns) (p .origin) (p .development)

/-- Inside the array, except possibly on axis `ax`. -/
def InsideBut (a : Arr K) (ax : Tri.Axis) (p : Pos) : Prop := ∀ b, b ≠ ax → p b < a.dim b

end Arr

namespace Tri
variable {K : Type}

/-- Number of labels of an axis. -/
def axisLen (t : Tri K) : Axis → Nat
  | .index => t.kdims.length
  | .columns => t.vdims.length
  | .origin => t.odims.length
  | .development => t.ddims.length

end Tri
end CL
