import Verif.Props.C26

set_option linter.unusedSectionVars false

/-! # C27: copies are independent -/

namespace CL
namespace Mem
variable {K : Type} [Field K] [LinearOrder K] [IsStrictOrderedRing K]

/-- **C27**: no program that leaves `x` alone — it may copy `x`, and assign to the copies and to their
copies in any way — changes the labels or the values of `x`. -/
theorem C27_values (h : Heap K) (ho : h.Ok) (x : Nat) (hx : x < h.nobj) (p : List (Cmd K))
    (hp : Legal x h p) : (run h p).view x = h.view x := (spares_run ho hx p hp).view

/-- **C27**: if `x` has no virtual columns, nor a dictionary in common with another object, no such program
changes what `x` returns for any key. -/
theorem C27_partial (h : Heap K) (ho : h.Ok) (x : Nat) (hx : x < h.nobj) (hd : h.DictOwn x)
    (hv : h.vcols x = []) (p : List (Cmd K)) (hp : Legal x h p) (key : String) :
    (run h p).column x key = h.column x key := by
  have hs := spares_run ho hx p hp
  unfold Heap.column
  rw [hs.view, (hs.dict hd hv).2, hv]

theorem storeCol_dict (h : Heap K) (r : Nat) (key : String) (v : ColVal K) (e : Nat) :
    (h.storeCol r key v).1.dict e = h.dict e := by
  unfold Heap.storeCol
  simp only
  split
  · split <;> rfl
  · split <;> rfl

/-- For every triangle with a virtual column: a virtual column defined on a copy is also
defined on the original, and one removed from the copy, by assigning amounts to it, is removed from
the original. -/
theorem C27_shared (h : Heap K) (ho : h.Ok) (x : Nat) (hx : x < h.nobj) (hv : h.vcols x ≠ []) (key : String)
    (f : VFun K) (v : ColVal K) :
    (run h [.copy x, .virtual h.nobj key f]).vcols x = VDict.set (h.vcols x) key f ∧
      (run h [.copy x, .column h.nobj key v]).vcols x = VDict.pop (h.vcols x) key := by
  have he : (h.vcols x).isEmpty = false := by simpa using hv
  have hn : (h.copy x).nobj = h.nobj + 1 := by rw [copy_eq h x hx]
  have hobj : ((h.copy x).obj h.nobj).dict = (h.obj x).dict := by
    rw [copy_eq h x hx]; simp [he]
  have hvc : (h.copy x).vcols h.nobj = h.vcols x := by
    unfold Heap.vcols; rw [hobj, copy_eq h x hx]; simp [he]
  have hs := spares_copy (x := x) ho hx hx
  have hne : h.nobj ≠ x := (ne_of_lt hx).symm
  constructor
  · have h1 := spares_exec hs.ok (x := x) (by omega) (.virtual h.nobj key f) (by show h.nobj < _; omega)
      fun _ => hne
    show (exec (h.copy x) (.virtual h.nobj key f)).1.dict ((exec (h.copy x) (.virtual h.nobj key f)).1.obj x).dict = _
    rw [h1.obj, hs.obj]
    simp only [exec]
    rw [storeCol_dict, hvc, hobj]
    simp [Heap.writeDict]
  · have h1 := spares_exec hs.ok (x := x) (by omega) (.column h.nobj key v) (by show h.nobj < _; omega)
      fun _ => hne
    show (exec (h.copy x) (.column h.nobj key v)).1.dict ((exec (h.copy x) (.column h.nobj key v)).1.obj x).dict = _
    rw [h1.obj, hs.obj]
    simp only [exec]
    rw [storeCol_dict, hvc, hobj]
    simp [Heap.writeDict]

/-- Twice the first column. -/
def Ex.double : VFun ℚ := fun t => t.mulArr (Arr.scalar (.fin 2))

/-- **C27 is false** with virtual columns: the original has no column `b`; after defining one on a
copy, it has. -/
theorem C27_false : (∃ u, (Ex.one (CL.Ex.tri3 (some true) CL.Ex.cum3) [("a", Ex.double)]).column 0 "a" = .ok u ∧
      u.values.get 0 0 0 0 = .fin 200) ∧
    (match (Ex.one (CL.Ex.tri3 (some true) CL.Ex.cum3) [("a", Ex.double)]).column 0 "b" with
      | .ok _ => false | .error e => e == .valueError) = true ∧
    ∃ u, (run (Ex.one (CL.Ex.tri3 (some true) CL.Ex.cum3) [("a", Ex.double)])
      [.copy 0, .virtual 1 "b" Ex.double]).column 0 "b" = .ok u ∧ u.values.get 0 0 0 0 = .fin 200 :=
  ⟨ok_of _ (by decide +kernel), by decide +kernel, ok_of _ (by decide +kernel)⟩

/-- A program of the kind the theorems are about. -/
example : Legal 0 (Ex.one (CL.Ex.tri3 (some true) CL.Ex.cum3) [])
    [.copy 0, .cell 1 0 0 0 0 (.fin 7), .column 1 "paid" (.num 0), .virtual 1 "b" Ex.double, .copy 1,
      .incrToCum 2 true, .rename 1 ["x", "y"]] := by
  refine ⟨by decide, by decide, by decide +kernel, by decide, by decide +kernel, by decide, by decide +kernel,
    by decide, by decide +kernel, by decide, by decide +kernel, by decide, by decide +kernel, by decide, trivial⟩

end Mem
end CL
