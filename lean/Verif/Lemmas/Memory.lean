import Verif.Model.Memory
import Verif.Lemmas.Coherent

set_option linter.unusedSectionVars false

/-! # What statements do to other objects -/

namespace CL
namespace Mem
variable {K : Type} [Field K] [LinearOrder K] [IsStrictOrderedRing K]

/-- Addresses in use are below the counters, and no two objects share an array. -/
structure Heap.Ok (h : Heap K) : Prop where
  buf : ∀ r < h.nobj, (h.obj r).buf < h.nbuf
  dict : ∀ r < h.nobj, (h.obj r).dict < h.ndict
  own : ∀ r < h.nobj, ∀ s < h.nobj, r ≠ s → (h.obj r).buf ≠ (h.obj s).buf

/-- No other object has the dictionary of `x`. -/
def Heap.DictOwn (h : Heap K) (x : Nat) : Prop := ∀ r < h.nobj, r ≠ x → (h.obj r).dict ≠ (h.obj x).dict

/-- What no statement on another object does to `x`. -/
structure Spares (x : Nat) (h h' : Heap K) : Prop where
  ok : h'.Ok
  more : h.nobj ≤ h'.nobj
  obj : h'.obj x = h.obj x
  buf : h'.buf (h.obj x).buf = h.buf (h.obj x).buf
  dict : h.DictOwn x → h.vcols x = [] → h'.DictOwn x ∧ h'.vcols x = []

theorem Spares.refl {x : Nat} {h : Heap K} (ho : h.Ok) : Spares x h h :=
  ⟨ho, le_rfl, rfl, rfl, fun a b => ⟨a, b⟩⟩

theorem Spares.trans {x : Nat} {h h' h'' : Heap K} (a : Spares x h h') (b : Spares x h' h'') : Spares x h h'' :=
  ⟨b.ok, a.more.trans b.more, b.obj.trans a.obj, by rw [← a.obj, b.buf, a.obj, a.buf],
    fun c d => b.dict (a.dict c d).1 (a.dict c d).2⟩

theorem Spares.view {x : Nat} {h h' : Heap K} (a : Spares x h h') : h'.view x = h.view x := by
  unfold Heap.view; rw [a.obj, a.buf]

theorem obj_setObj (h : Heap K) (r q : Nat) (o : Obj K) :
    (h.setObj r o).obj q = if q = r then o else h.obj q := rfl

/-- Changing labels. -/
theorem spares_labels {x r : Nat} {h : Heap K} (ho : h.Ok) (hx : x < h.nobj) (hr : r < h.nobj) (hne : r ≠ x)
    (t : Tri K) : Spares x h (h.setObj r { h.obj r with labels := t }) := by
  have hobj : ∀ q, ((h.setObj r { h.obj r with labels := t }).obj q).buf = (h.obj q).buf := by
    intro q; rw [obj_setObj]; split
    · rename_i e; rw [e]
    · rfl
  have hdict : ∀ q, ((h.setObj r { h.obj r with labels := t }).obj q).dict = (h.obj q).dict := by
    intro q; rw [obj_setObj]; split
    · rename_i e; rw [e]
    · rfl
  refine ⟨⟨fun q hq => ?_, fun q hq => ?_, fun q hq s hs => ?_⟩, le_rfl, ?_, rfl, fun a b => ⟨?_, ?_⟩⟩
  · rw [hobj]; exact ho.buf q hq
  · rw [hdict]; exact ho.dict q hq
  · rw [hobj, hobj]; exact ho.own q hq s hs
  · rw [obj_setObj, if_neg (Ne.symm hne)]
  · intro q hq hqx; rw [hdict, hdict]; exact a q hq hqx
  · unfold Heap.vcols; rw [hdict]; exact b

/-- Writing into the array of another object. -/
theorem spares_write {x r : Nat} {h : Heap K} (ho : h.Ok) (hx : x < h.nobj) (hr : r < h.nobj) (hne : r ≠ x)
    (a : Arr K) : Spares x h (h.write (h.obj r).buf a) := by
  refine ⟨⟨ho.buf, ho.dict, ho.own⟩, le_rfl, rfl, ?_, fun a b => ⟨a, b⟩⟩
  show (if (h.obj x).buf = (h.obj r).buf then a else h.buf (h.obj x).buf) = _
  rw [if_neg (ho.own x hx r hr (Ne.symm hne))]

/-- Writing into the dictionary of another object. -/
theorem spares_writeDict {x r : Nat} {h : Heap K} (ho : h.Ok) (hr : r < h.nobj) (hne : r ≠ x)
    (d : VDict K) : Spares x h (h.writeDict (h.obj r).dict d) := by
  refine ⟨⟨ho.buf, ho.dict, ho.own⟩, le_rfl, rfl, rfl, fun a b => ⟨a, ?_⟩⟩
  show (if (h.obj x).dict = (h.obj r).dict then d else h.dict (h.obj x).dict) = _
  rw [if_neg (Ne.symm (a r hr hne))]; exact b

/-- Giving another object a new array. -/
theorem spares_setValues {x r : Nat} {h : Heap K} (ho : h.Ok) (hx : x < h.nobj) (hr : r < h.nobj) (hne : r ≠ x)
    (a : Arr K) : Spares x h (h.setValues r a) := by
  have hobj : ∀ q, ((h.setValues r a).obj q).buf = if q = r then h.nbuf else (h.obj q).buf := by
    intro q
    show (if q = r then ({ h.obj r with buf := h.nbuf } : Obj K) else h.obj q).buf = _
    split <;> rfl
  have hdict : ∀ q, ((h.setValues r a).obj q).dict = (h.obj q).dict := by
    intro q
    show (if q = r then ({ h.obj r with buf := h.nbuf } : Obj K) else h.obj q).dict = _
    split
    · rename_i e; rw [e]
    · rfl
  refine ⟨⟨fun q hq => ?_, fun q hq => ?_, fun q hq s hs hqs => ?_⟩, le_rfl, ?_, ?_, fun c b => ⟨?_, ?_⟩⟩
  · rw [hobj]; show _ < h.nbuf + 1
    split
    · exact Nat.lt_succ_self _
    · exact (ho.buf q hq).trans (Nat.lt_succ_self _)
  · rw [hdict]; exact ho.dict q hq
  · rw [hobj, hobj]
    by_cases h1 : q = r
    · rw [if_pos h1]
      by_cases h2 : s = r
      · exact absurd (h1.trans h2.symm) hqs
      · rw [if_neg h2]; exact Ne.symm (ne_of_lt (ho.buf s hs))
    · rw [if_neg h1]
      by_cases h2 : s = r
      · rw [if_pos h2]; exact ne_of_lt (ho.buf q hq)
      · rw [if_neg h2]; exact ho.own q hq s hs hqs
  · show (if x = r then _ else h.obj x) = _
    rw [if_neg (Ne.symm hne)]
  · show (if (h.obj x).buf = h.nbuf then a else h.buf (h.obj x).buf) = _
    rw [if_neg (ne_of_lt (ho.buf x hx))]
  · intro q hq hqx; rw [hdict, hdict]; exact c q hq hqx
  · unfold Heap.vcols; rw [hdict]; exact b

/-- Giving another object new slicers. -/
theorem spares_setSlicers {x r : Nat} {h : Heap K} (ho : h.Ok) (hx : x < h.nobj) (hr : r < h.nobj) (hne : r ≠ x) :
    Spares x h (h.setSlicers r) := by
  unfold Heap.setSlicers
  split
  swap
  · exact Spares.refl ho
  obtain ⟨h', hh⟩ : ∃ h', h' = (({ (h.writeDict h.ndict []) with ndict := h.ndict + 1 } : Heap K).setObj r
      { h.obj r with dict := h.ndict }) := ⟨_, rfl⟩
  rw [← hh]
  have hbuf : ∀ q, (h'.obj q).buf = (h.obj q).buf := by
    intro q; rw [hh]
    show (if q = r then ({ h.obj r with dict := h.ndict } : Obj K) else h.obj q).buf = _
    split
    · rename_i e; rw [e]
    · rfl
  have hdict : ∀ q, (h'.obj q).dict = if q = r then h.ndict else (h.obj q).dict := by
    intro q; rw [hh]
    show (if q = r then ({ h.obj r with dict := h.ndict } : Obj K) else h.obj q).dict = _
    split <;> rfl
  have hn : h'.nobj = h.nobj := by rw [hh]; rfl
  refine ⟨⟨fun q hq => ?_, fun q hq => ?_, fun q hq s hs hqs => ?_⟩, hn ▸ le_rfl, ?_, ?_, fun c b => ⟨?_, ?_⟩⟩
  · rw [hbuf, hh]; exact ho.buf q (hn ▸ hq)
  · rw [hdict, hh]; show _ < h.ndict + 1
    split
    · exact Nat.lt_succ_self _
    · exact (ho.dict q (hn ▸ hq)).trans (Nat.lt_succ_self _)
  · rw [hbuf, hbuf]; exact ho.own q (hn ▸ hq) s (hn ▸ hs) hqs
  · rw [hh]; show (if x = r then _ else h.obj x) = _
    rw [if_neg (Ne.symm hne)]
  · rw [hh]; rfl
  · intro q hq hqx
    rw [hdict, hdict, if_neg (Ne.symm hne)]
    split
    · exact Ne.symm (ne_of_lt (ho.dict x hx))
    · exact c q (hn ▸ hq) hqx
  · unfold Heap.vcols
    rw [hdict, if_neg (Ne.symm hne), hh]
    show (if (h.obj x).dict = h.ndict then [] else h.dict (h.obj x).dict) = []
    rw [if_neg (ne_of_lt (ho.dict x hx))]; exact b

/-- What a copy is. -/
theorem copy_eq (h : Heap K) (r : Nat) (hr : r < h.nobj) :
    h.copy r =
      { obj := fun q => if q = h.nobj then
          ⟨(h.obj r).labels, h.nbuf, if (h.vcols r).isEmpty then h.ndict else (h.obj r).dict⟩ else h.obj q
        buf := fun q => if q = h.nbuf then h.buf (h.obj r).buf else h.buf q
        dict := fun q => if (h.vcols r).isEmpty ∧ q = h.ndict then [] else h.dict q
        nobj := h.nobj + 1
        nbuf := h.nbuf + 1
        ndict := if (h.vcols r).isEmpty then h.ndict + 1 else h.ndict } := by
  have hv : (({ h with nobj := h.nobj + 1 } : Heap K).setObj h.nobj (h.obj r)).vcols h.nobj = h.vcols r := by
    unfold Heap.vcols; rw [obj_setObj, if_pos rfl]; rfl
  unfold Heap.copy Heap.setSlicers
  simp only [hv]
  by_cases he : (h.vcols r).isEmpty = true
  · simp only [he, if_true, true_and]
    simp only [Heap.setValues, Heap.setObj, Heap.write, Heap.writeDict, if_true]
    congr 1
    funext q
    by_cases hq : q = h.nobj <;> simp [hq]
  · have he : (h.vcols r).isEmpty = false := by simpa using he
    simp only [he, Bool.false_eq_true, if_false, false_and]
    simp only [Heap.setValues, Heap.setObj, Heap.write, Heap.writeDict, if_true]
    congr 1
    funext q
    by_cases hq : q = h.nobj <;> simp [hq]

/-- A copy, of `x` or of another object. -/
theorem spares_copy {x r : Nat} {h : Heap K} (ho : h.Ok) (hx : x < h.nobj) (hr : r < h.nobj) :
    Spares x h (h.copy r) := by
  rw [copy_eq h r hr]
  refine ⟨⟨fun q hq => ?_, fun q hq => ?_, fun q hq s hs hqs => ?_⟩, Nat.le_succ _, ?_, ?_, fun c b => ⟨?_, ?_⟩⟩
  · show (if q = h.nobj then (_ : Obj K) else h.obj q).buf < h.nbuf + 1
    split
    · exact Nat.lt_succ_self _
    · exact (ho.buf q (by have : q < h.nobj + 1 := hq; omega)).trans (Nat.lt_succ_self _)
  · show (if q = h.nobj then (_ : Obj K) else h.obj q).dict < _
    have hr' := ho.dict r hr
    split
    · show (if (h.vcols r).isEmpty then h.ndict else (h.obj r).dict) < if (h.vcols r).isEmpty then h.ndict + 1 else h.ndict
      split <;> omega
    · have := ho.dict q (by have : q < h.nobj + 1 := hq; omega)
      show _ < if (h.vcols r).isEmpty then h.ndict + 1 else h.ndict
      split <;> omega
  · show (if q = h.nobj then (_ : Obj K) else h.obj q).buf ≠ (if s = h.nobj then (_ : Obj K) else h.obj s).buf
    have hq' : q < h.nobj + 1 := hq
    have hs' : s < h.nobj + 1 := hs
    by_cases h1 : q = h.nobj
    · rw [if_pos h1]
      have h2 : s ≠ h.nobj := fun e => hqs (h1.trans e.symm)
      rw [if_neg h2]; exact Ne.symm (ne_of_lt (ho.buf s (by omega)))
    · rw [if_neg h1]
      by_cases h2 : s = h.nobj
      · rw [if_pos h2]; exact ne_of_lt (ho.buf q (by omega))
      · rw [if_neg h2]; exact ho.own q (by omega) s (by omega) hqs
  · show (if x = h.nobj then _ else h.obj x) = _
    rw [if_neg (ne_of_lt hx)]
  · show (if (h.obj x).buf = h.nbuf then _ else _) = _
    rw [if_neg (ne_of_lt (ho.buf x hx))]
  · intro q hq hqx
    have hq' : q < h.nobj + 1 := hq
    show (if q = h.nobj then (_ : Obj K) else h.obj q).dict ≠ (if x = h.nobj then (_ : Obj K) else h.obj x).dict
    rw [if_neg (ne_of_lt hx)]
    split
    · show (if (h.vcols r).isEmpty then h.ndict else (h.obj r).dict) ≠ _
      split
      · exact Ne.symm (ne_of_lt (ho.dict x hx))
      · rename_i hne
        refine c r hr fun e => hne ?_
        rw [e, b]; rfl
    · exact c q (by omega) hqx
  · show (if (h.vcols r).isEmpty ∧ (if x = h.nobj then (_ : Obj K) else h.obj x).dict = h.ndict then [] else
      h.dict (if x = h.nobj then (_ : Obj K) else h.obj x).dict) = []
    rw [if_neg (ne_of_lt hx)]
    split
    · rfl
    · exact b

/-- A new object. -/
theorem spares_derive {x r : Nat} {h : Heap K} (ho : h.Ok) (hx : x < h.nobj) (hr : r < h.nobj) (t : Tri K) :
    Spares x h (h.derive r t) := by
  have h1 := spares_copy ho hx hr
  have hn : (h.copy r).nobj = h.nobj + 1 := by rw [copy_eq h r hr]
  have hne : h.nobj ≠ x := Ne.symm (ne_of_lt hx)
  have h2 := spares_labels h1.ok (x := x) (r := h.nobj) (by omega) (by omega) hne t
  have h3 := spares_setValues h2.ok (x := x) (r := h.nobj)
    (by show x < (h.copy r).nobj; omega) (by show h.nobj < (h.copy r).nobj; omega) hne t.values
  exact (h1.trans h2).trans h3

theorem spares_storeCol {x r : Nat} {h : Heap K} (ho : h.Ok) (hx : x < h.nobj) (hr : r < h.nobj) (hne : r ≠ x)
    (key : String) (v : ColVal K) : Spares x h (h.storeCol r key v).1 := by
  unfold Heap.storeCol
  simp only
  split
  · split
    · exact spares_write ho hx hr hne _
    · exact Spares.refl ho
  · have h1 := spares_labels ho hx hr hne { (h.obj r).labels with vdims := (h.obj r).labels.vdims ++ [key] }
    split
    · exact h1.trans (spares_setValues h1.ok (by exact hx) (by exact hr) hne _)
    · exact h1

theorem spares_incrToCum {x r : Nat} {h : Heap K} (ho : h.Ok) (hx : x < h.nobj) (hr : r < h.nobj) (hne : r ≠ x) :
    Spares x h (h.incrToCum r).1 := by
  unfold Heap.incrToCum
  simp only
  split
  · exact Spares.refl ho
  · have h1 := spares_setValues ho hx hr hne (h.view r).incrToCum.values
    exact h1.trans (spares_labels h1.ok (by exact hx) (by exact hr) hne _)

theorem spares_fillna {x r : Nat} {h : Heap K} (ho : h.Ok) (hx : x < h.nobj) (hr : r < h.nobj) (hne : r ≠ x)
    (v : K) : Spares x h (h.fillna r v).1 := by
  unfold Heap.fillna
  split
  · exact spares_setValues ho hx hr hne _
  · exact Spares.refl ho

theorem spares_cumToIncr {x r : Nat} {h : Heap K} (ho : h.Ok) (hx : x < h.nobj) (hr : r < h.nobj) (hne : r ≠ x) :
    Spares x h (h.cumToIncr r).1 := by
  unfold Heap.cumToIncr
  simp only
  split
  · exact Spares.refl ho
  · by_cases hp : (h.view r).isPattern = true
    · simp only [hp, if_true]
      have h1 := spares_setValues ho hx hr hne ((h.view r).values.map fun x => x.nanToNum.numToValue 1)
      split
      · exact h1.trans (spares_derive h1.ok (by exact hx) (by exact hr) _)
      · exact h1
    · simp only [hp]
      split
      · exact spares_derive ho hx hr _
      · exact Spares.refl ho

/-- The statements that may change the object they are applied to. -/
def Cmd.mutates : Cmd K → Bool
  | .copy _ => false
  | .cell .. | .column .. | .virtual .. | .rename .. => true
  | .incrToCum _ i | .cumToIncr _ i | .fillna _ _ i | .grain _ _ i => i

theorem spares_exec {x : Nat} {h : Heap K} (ho : h.Ok) (hx : x < h.nobj) (c : Cmd K) (hr : c.target < h.nobj)
    (hne : c.mutates = true → c.target ≠ x) : Spares x h (exec h c).1 := by
  have hnew : h.nobj ≠ x := Ne.symm (ne_of_lt hx)
  cases c with
  | copy r => exact spares_copy ho hx hr
  | cell r i c o d v =>
    have hne := hne rfl
    simp only [exec]
    split
    · exact spares_write ho hx hr hne _
    · exact Spares.refl ho
  | column r key v =>
    have hne := hne rfl
    have h1 := spares_writeDict ho hr hne (VDict.pop (h.vcols r) key)
    exact h1.trans (spares_storeCol h1.ok (by exact hx) (by exact hr) hne _ _)
  | virtual r key f =>
    have hne := hne rfl
    have h1 := spares_writeDict ho hr hne (VDict.set (h.vcols r) key f)
    exact h1.trans (spares_storeCol h1.ok (by exact hx) (by exact hr) hne _ _)
  | rename r names =>
    have hne := hne rfl
    simp only [exec]
    split
    · have h1 := spares_labels ho hx hr hne { (h.obj r).labels with vdims := names }
      exact h1.trans (spares_setSlicers h1.ok (by exact hx) (by exact hr) hne)
    · exact Spares.refl ho
  | incrToCum r i =>
    cases i with
    | true => exact spares_incrToCum ho hx hr (hne rfl)
    | false =>
      have h1 := spares_copy (r := r) ho hx hr
      have hn : (h.copy r).nobj = h.nobj + 1 := by rw [copy_eq h r hr]
      exact h1.trans (spares_incrToCum h1.ok (by omega) (by omega) hnew)
  | cumToIncr r i =>
    cases i with
    | true => exact spares_cumToIncr ho hx hr (hne rfl)
    | false =>
      have h1 := spares_copy (r := r) ho hx hr
      have hn : (h.copy r).nobj = h.nobj + 1 := by rw [copy_eq h r hr]
      exact h1.trans (spares_cumToIncr h1.ok (by omega) (by omega) hnew)
  | fillna r v i =>
    cases i with
    | true => exact spares_fillna ho hx hr (hne rfl) v
    | false =>
      have h1 := spares_copy (r := r) ho hx hr
      have hn : (h.copy r).nobj = h.nobj + 1 := by rw [copy_eq h r hr]
      exact h1.trans (spares_fillna h1.ok (by omega) (by omega) hnew v)
  | grain r g i =>
    simp only [exec]
    split
    · exact spares_derive ho hx hr _
    · exact Spares.refl ho

/-- A program that never changes `x` itself: every statement is applied to an existing object, and the
ones that change their object are applied to others. -/
def Legal (x : Nat) : Heap K → List (Cmd K) → Prop
  | _, [] => True
  | h, c :: p => c.target < h.nobj ∧ (c.mutates = true → c.target ≠ x) ∧ Legal x (exec h c).1 p

theorem spares_run {x : Nat} {h : Heap K} (ho : h.Ok) (hx : x < h.nobj) (p : List (Cmd K)) (hp : Legal x h p) :
    Spares x h (run h p) := by
  induction p generalizing h with
  | nil => exact Spares.refl ho
  | cons c p ih =>
    have h1 := spares_exec ho hx c hp.1 hp.2.1
    exact h1.trans (ih h1.ok (lt_of_lt_of_le hx h1.more) hp.2.2)

theorem view_setValues (h : Heap K) (r : Nat) (a : Arr K) :
    (h.setValues r a).view r = { h.view r with values := a } := by
  simp [Heap.view, Heap.setValues, Heap.setObj, Heap.write]

theorem view_copy (h : Heap K) (r : Nat) (hr : r < h.nobj) : (h.copy r).view h.nobj = h.view r := by
  rw [copy_eq h r hr]; simp [Heap.view]

theorem view_derive (h : Heap K) (r : Nat) (t : Tri K) : (h.derive r t).view h.nobj = t := by
  simp [Heap.derive, Heap.view, Heap.setValues, Heap.setObj, Heap.write]

theorem incrToCum_self (h : Heap K) (r : Nat) :
    (h.incrToCum r).2 = .ok r ∧ (h.incrToCum r).1.view r = (h.view r).incrToCum := by
  unfold Heap.incrToCum
  simp only
  by_cases hc : (h.view r).isCum = some true
  · rw [if_pos hc]
    refine ⟨rfl, ?_⟩
    unfold Tri.incrToCum; rw [if_pos hc]
  · rw [if_neg hc]
    refine ⟨rfl, ?_⟩
    have : (h.view r).incrToCum = { h.view r with values := (h.view r).incrToCum.values, isCum := some true } := by
      unfold Tri.incrToCum; rw [if_neg hc]
    rw [this]
    simp [Heap.view, Heap.setValues, Heap.setObj, Heap.write]

theorem fillna_self (h : Heap K) (r : Nat) (v : K) (u : Tri K) (hu : (h.view r).fillna v = .ok u) :
    (h.fillna r v).2 = .ok r ∧ (h.fillna r v).1.view r = u := by
  unfold Heap.fillna
  rw [hu]
  refine ⟨rfl, ?_⟩
  show (h.setValues r u.values).view r = u
  rw [view_setValues]
  unfold Tri.fillna at hu
  obtain ⟨_, _, hu⟩ := bind_ok hu
  obtain ⟨_, _, hu⟩ := bind_ok hu
  obtain ⟨_, _, hu⟩ := bind_ok hu
  obtain ⟨_, _, hu⟩ := bind_ok hu
  obtain ⟨_, _, hu⟩ := bind_ok hu
  injection hu with hu
  subst hu
  rfl

end Mem
end CL
