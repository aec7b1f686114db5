import Verif.Props.C05
import Verif.Props.C28
import Verif.Lemmas.Arith

set_option linter.unusedSectionVars false

/-! # The weights of `Development` -/

namespace CL
namespace Dev
variable {K : Type} [Field K] [LinearOrder K] [IsStrictOrderedRing K]
open Tri

theorem even_range (n : Nat) : Even (List.range n) := by
  have := even_ap 0 1 n
  simpa using this

/-- A valuation filter that selects a cell in every row and column keeps the shape. -/
theorem filterMask_full {t : Tri K} (wf : WF t) (key : Nat → Nat → Bool)
    (hr : ∀ o < t.values.d2, ∃ d < t.values.d3, key o d = true)
    (hc : ∀ d < t.values.d3, ∃ o < t.values.d2, key o d = true)
    (h2 : 0 < t.values.d2) (h3 : 0 < t.values.d3) :
    ∃ u, t.filterMask key = .ok u ∧ WF u ∧ Arr.SameShape u.values t.values ∧ u.odims = t.odims ∧
      u.ddims = t.ddims ∧ u.isVal = t.isVal ∧ u.kdims = t.kdims ∧ u.vdims = t.vdims ∧
      ∀ i < t.values.d0, ∀ c < t.values.d1, ∀ o < t.values.d2, ∀ d < t.values.d3,
        u.values.get i c o d = (t.values.get i c o d * Num.ofBool (key o d)).numToNan := by
  have er : keyRows t.values.d2 t.values.d3 key = List.range t.values.d2 := by
    unfold keyRows
    rw [List.filter_eq_self]
    intro o ho
    obtain ⟨d, hd, hk⟩ := hr o (by simpa using ho)
    simp only [List.any_eq_true, List.mem_range]
    exact ⟨d, hd, hk⟩
  have ec : keyCols t.values.d2 t.values.d3 key = List.range t.values.d3 := by
    unfold keyCols
    rw [List.filter_eq_self]
    intro d hd
    obtain ⟨o, ho, hk⟩ := hc d (by simpa using hd)
    simp only [List.any_eq_true, List.mem_range]
    exact ⟨o, ho, hk⟩
  have ne : ∀ {n : Nat}, 0 < n → List.range n ≠ [] := by
    intro n hn h; rw [List.range_eq_nil] at h; omega
  rw [filterMask_eq key (by rw [er]; exact ne h2) (by rw [ec]; exact ne h3)
    (by rw [er, ec]; exact ⟨even_range _, even_range _⟩), er, ec,
    pick_eq _ _ _ _ _ (Or.inr (ne h3))]
  obtain ⟨w0, w1, w2, w3⟩ := wf
  refine ⟨_, rfl, ?_, ?_, ?_, ?_, rfl, ?_, ?_, ?_⟩
  · refine ⟨?_, ?_, ?_, ?_⟩ <;> simp [picked, Arr.take]
  · refine ⟨?_, ?_, ?_, ?_⟩ <;> simp [picked, Arr.take]
  · exact getD_getD_range _ _ _ w2
  · exact getD_getD_range _ _ _ w3
  · exact getD_getD_range _ _ _ w0
  · exact getD_getD_range _ _ _ w1
  · intro i hi c hc o ho d hd
    show (Arr.take _ _ _ _ _).get i c o d = _
    simp only [Arr.take]
    rw [getD_range _ _ hi, getD_range _ _ hc, getD_range _ _ ho, getD_range _ _ hd]

/-- The weights of the latest diagonals, when every row and column has a cell valued at or after
the cutoff. -/
theorem recent_eq {t : Tri K} (wf : WF t) (fin : Tri.Finite t) (hd : 1 < t.values.d3)
    (h2 : 0 < t.values.d2) {z : Int} {v : Int} (hv : pyGet (knownValuations t) z = .ok v)
    (hr : ∀ o < t.values.d2, ∃ d < t.values.d3, v ≤ t.valuation o d)
    (hc : ∀ d < t.values.d3, ∃ o < t.values.d2, v ≤ t.valuation o d) :
    ∃ w, recent t z = .ok w ∧ Arr.SameShape w t.values ∧
      ∀ i < t.values.d0, ∀ c < t.values.d1, ∀ o < t.values.d2, ∀ d < t.values.d3,
        w.get i c o d =
          (if v ≤ t.valuation o d ∧ (t.values.get i c o d).amt ≠ 0 then 1 else 0) * t.nanTri o d := by
  obtain ⟨u, hu, wu, ⟨s0, s1, s2, s3⟩, -, -, -, -, -, hg⟩ := filterMask_full wf
    (fun o d => decide (v ≤ t.valuation o d)) (by simpa using hr) (by simpa using hc) h2 (by omega)
  have hdiv : u.div u = .ok { u with
      isPattern := u.isPattern && u.isPattern
      vd := max u.vd u.vd
      values := { u.values with get := fun i c o d => u.values.get i c o d / u.values.get i c o d } } := by
    unfold Tri.div
    rw [validate_same ⟨rfl, rfl, rfl, rfl, rfl, rfl, rfl, rfl⟩ wu wu]
    simp only [divArr, zipArr, bind, Except.bind]
    rw [Arr.zip_same _ ⟨rfl, rfl, rfl, rfl⟩]
  have b1 : ∀ m, Arr.bdim m 1 = some m := by
    intro m; unfold Arr.bdim; split_ifs <;> simp_all
  have b2 : ∀ m, Arr.bdim m m = some m := Arr.bdim_self
  unfold recent
  have hget : t.getVal (fun x => decide (v ≤ x)) = .ok u := by
    unfold getVal; rw [if_pos hd]; exact hu
  simp only [hv, hget, hdiv, bind, Except.bind]
  unfold Arr.zip nanArr Arr.map
  simp only [s0, s1, s2, s3, b1, b2]
  refine ⟨_, rfl, ⟨rfl, rfl, rfl, rfl⟩, ?_⟩
  intro i hi c hc o ho d hd
  simp only [Arr.bix_self]
  rw [hg i hi c hc o ho d hd]
  congr 1
  rcases Num.noInf_cases (fin i hi c hc o ho d hd) with e | ⟨a, e⟩
  · rw [e]; simp [Num.zero_def]
  · rw [e]
    by_cases h1 : v ≤ t.valuation o d
    · by_cases h0 : a = 0
      · subst h0; simp [h1, Num.ofBool, Num.zero_def]
      · simp [h1, h0, Num.ofBool, Num.one_def, Num.numToNan, Num.fin_div_fin_of_ne]
    · simp [h1, Num.ofBool, Num.zero_def]

/-- Missing, 0 or 1. -/
def ZeroOne (x : Num K) : Prop := x = .nan ∨ x = 0 ∨ x = 1

theorem ZeroOne.mul {x y : Num K} (hx : ZeroOne x) (hy : ZeroOne y) : ZeroOne (x * y) := by
  rcases hx with rfl | rfl | rfl <;> rcases hy with rfl | rfl | rfl <;>
    simp [ZeroOne, Num.zero_def, Num.one_def]

theorem zeroOne_nanTri (t : Tri K) (o d : Nat) : ZeroOne (t.nanTri o d) := by
  rcases Tri.nanTri_eq t o d with e | ⟨e, -⟩ <;> rw [e] <;> simp [ZeroOne]

theorem zeroOne_one : ZeroOne (1 : Num K) := Or.inr (Or.inr rfl)

theorem zeroOne_ofBool (b : Bool) : ZeroOne (Num.ofBool b : Num K) := by
  cases b <;> simp [ZeroOne, Num.ofBool, Num.zero_def, Num.one_def]

theorem zeroOne_self_div (x : Num K) : ZeroOne (x / x).nanToNum := by
  cases x with
  | nan => simp [ZeroOne, Num.zero_def]
  | ninf => right; left; rfl
  | pinf => right; left; rfl
  | fin a =>
    by_cases ha : a = 0
    · subst ha; right; left
      rw [Num.fin_div_fin]; simp [Num.zero_def]
    · rw [Num.fin_div_fin_of_ne _ ha, div_self ha]; right; right; rfl

theorem zeroOne_observed (x : Num K) : ZeroOne (x * 0 + 1) := by
  cases x with
  | nan => left; simp
  | fin a => right; right; simp [Num.zero_def, Num.one_def]
  | ninf => left; simp [Num.zero_def, Num.ninf_mul_fin, Num.infMul]
  | pinf => left; simp [Num.zero_def, Num.pinf_mul_fin, Num.infMul]

theorem getIdx_wf {t u : Tri K} {ki kc ko kd : Key} (h : t.getIdx ki kc ko kd = .ok u) : WF u := by
  unfold getIdx at h
  simp only [bind, Except.bind] at h
  split at h
  · cases h
  split at h
  · cases h
  split at h
  · cases h
  split at h
  · cases h
  split at h
  · cases h
  split at h
  · cases h
  split at h
  · cases h
  split at h
  · cases h
  split at h
  · cases h
  rename_i pi _ _ pc _ _ po _ _ pd _
  unfold pick at h
  simp only at h
  split at h
  · cases h
  split at h
  · cases h
    refine ⟨?_, ?_, ?_, ?_⟩ <;> simp [Arr.take]
  · cases h
    refine ⟨?_, ?_, ?_, ?_⟩ <;> simp [Arr.take]

theorem recent_zeroOne {t : Tri K} {z : Int} {w : Arr K} (hd : 1 < t.values.d3)
    (h : recent t z = .ok w) (i c o d : Nat) : ZeroOne (w.get i c o d) := by
  unfold recent at h
  simp only [bind, Except.bind] at h
  split at h
  · cases h
  split at h
  · cases h
  rename_i v _ _ u hu
  have wu : WF u := by
    unfold getVal at hu
    rw [if_pos hd] at hu
    exact getIdx_wf hu
  have hdiv : u.div u = .ok { u with
      isPattern := u.isPattern && u.isPattern
      vd := max u.vd u.vd
      values := { u.values with get := fun i c o d => u.values.get i c o d / u.values.get i c o d } } := by
    unfold Tri.div
    rw [validate_same ⟨rfl, rfl, rfl, rfl, rfl, rfl, rfl, rfl⟩ wu wu]
    simp only [divArr, zipArr, bind, Except.bind]
    rw [Arr.zip_same _ ⟨rfl, rfl, rfl, rfl⟩]
  rw [hdiv] at h
  simp only at h
  unfold Arr.zip at h
  split at h
  · cases h
    exact (zeroOne_self_div _).mul (zeroOne_nanTri _ _ _)
  · cases h

theorem nPeriodsInt_zeroOne {t : Tri K} {n : Int} {w : Arr K} (hd : 1 < t.values.d3)
    (h : nPeriodsInt t n = .ok w) (i c o d : Nat) : ZeroOne (w.get i c o d) := by
  unfold nPeriodsInt at h
  split at h
  · cases h; exact zeroOne_observed _
  split at h
  · cases h
  · exact recent_zeroOne hd h i c o d

theorem mapM_mem {α β : Type} (f : α → Except Err β) : ∀ {l : List α} {r : List β},
    l.mapM f = .ok r → ∀ b ∈ r, ∃ a ∈ l, f a = .ok b
  | [], r, h => by
    cases h; simp
  | a :: l, r, h => by
    rw [List.mapM_cons] at h
    cases hf : f a with
    | error e => rw [hf] at h; cases h
    | ok b =>
      rw [hf] at h
      cases hm : l.mapM f with
      | error e => rw [hm] at h; cases h
      | ok s =>
        rw [hm] at h
        cases h
        intro b' hb
        rcases List.mem_cons.1 hb with rfl | hb
        · exact ⟨a, by simp, hf⟩
        · obtain ⟨a', ha', hfa⟩ := mapM_mem f hm b' hb
          exact ⟨a', by simp [ha'], hfa⟩

theorem nPeriodsWeight_zeroOne {t : Tri K} {m : Nat} {ns : Nat → Int} {w : Arr K}
    (hd : 1 < t.values.d3) (h : nPeriodsWeight t m ns = .ok w) (i c o d : Nat) :
    ZeroOne (w.get i c o d) := by
  unfold nPeriodsWeight at h
  simp only [bind, Except.bind] at h
  split at h
  · cases h
  rename_i l hl
  cases h
  cases l with
  | nil => exact Or.inl rfl
  | cons a l =>
    show ZeroOne (((a :: l).getD d a).get i c o d)
    have hmem : (a :: l).getD d a ∈ a :: l := by
      rw [List.getD_eq_getElem?_getD]
      by_cases hd : d < (a :: l).length
      · rw [List.getElem?_eq_getElem hd]; exact List.getElem_mem _
      · rw [List.getElem?_eq_none (by omega)]; simp
    obtain ⟨k, -, hk⟩ := mapM_mem _ hl _ hmem
    exact nPeriodsInt_zeroOne hd hk i c o d

theorem drop_zeroOne {t : Tri K} {items : List (Int × Int)} {w : Arr K} (h : drop t items = .ok w)
    (i c o d : Nat) : ZeroOne (w.get i c o d) := by
  unfold drop at h
  split at h
  · cases h
    simp only
    split
    · right; left; rfl
    · exact zeroOne_nanTri _ _ _
  · cases h

theorem dropValuation_zeroOne {t : Tri K} {vs : List Int} {w : Arr K}
    (h : dropValuation t vs = .ok w) (i c o d : Nat) : ZeroOne (w.get i c o d) := by
  unfold dropValuation at h
  simp only [bind, Except.bind] at h
  split at h
  · cases h
  cases h
  simp only
  split
  · rename_i f _ _
    rcases zeroOne_observed (f.values.get 0 0 o d) with e | e | e <;> rw [e] <;>
      simp [ZeroOne, Num.zero_def, Num.one_def]
  · exact zeroOne_one

/-- **The weights of the fit are 0, 1 or missing**, for all parameters. -/
theorem weights_zeroOne {t : Tri K} {p : Params K} {w : Arr K} (hd : 1 < t.values.d3)
    (h : weights t p = .ok w) (i c o d : Nat) : ZeroOne (w.get i c o d) := by
  unfold weights dropAdjustment at h
  simp only [bind, Except.bind] at h
  split at h
  · cases h
  rename_i a ha
  split at h
  · cases h
  rename_i b hb
  split at hb
  · cases hb
  rename_i x hx
  split at hb
  · cases hb
  rename_i y hy
  have zx : ∀ i c o d, ZeroOne (x.get i c o d) := by
    intro i c o d
    unfold optWeight at hx
    split at hx
    · cases hx; exact zeroOne_one
    · rename_i e
      cases hp : p.drop with
      | none => rw [hp] at e; cases e
      | some l => rw [hp] at e; cases e; exact drop_zeroOne hx i c o d
  have zy : ∀ i c o d, ZeroOne (y.get i c o d) := by
    intro i c o d
    unfold optWeight at hy
    split at hy
    · cases hy; exact zeroOne_one
    · rename_i e
      cases hp : p.dropVal with
      | none => rw [hp] at e; cases e
      | some l => rw [hp] at e; cases e; exact dropValuation_zeroOne hy i c o d
  cases h
  refine ZeroOne.mul (nPeriodsWeight_zeroOne hd ha _ _ _ _) ?_
  have base : ∀ i c o d, ZeroOne (t.nanTri o d * bget x i c o d * bget y i c o d) := fun i c o d =>
    ((zeroOne_nanTri t o d).mul (zx _ _ _ _)).mul (zy _ _ _ _)
  split at hb
  · split at hb
    · cases hb
    · cases hb
      simp only
      split
      · exact ((base _ _ _ _).mul (zeroOne_ofBool _)).mul (zeroOne_ofBool _)
      · exact (base _ _ _ _).mul (zeroOne_ofBool _)
  · split at hb
    · cases hb
      exact (base _ _ _ _).mul (zeroOne_ofBool _)
    · cases hb
      exact base _ _ _ _

/-- Every fitted factor is an average over the origins with weight 1. -/
theorem fit_average {t u : Tri K} (fin : Tri.Finite t) {p : Params K} {w : Arr K}
    (hw : weights t p = .ok w) (hu : fit t p = .ok u) {i c d : Nat}
    (hi : i < t.values.d0) (hc : c < t.values.d1) (hd : d + 1 < t.values.d3) :
    u.values.get i c 0 d = (Num.fin (average t i c d
      (included t (fun i c o d => (w.get i c o d).amt) i c d) (p.average d))).numToNan := by
  have hval : u.values = ldfArr t p w := fit_values hw hu
  rw [hval, C28_average fin p w hi hc hd (fun o _ => weights_zeroOne (by omega) hw i c o d)]

/-- The weights without `n_periods`: what the three masks of `_drop_adjustment` leave. -/
theorem weights_masks {t : Tri K} {p : Params K} (hn : ∀ d, p.nPeriods d < 1)
    (h1 : p.dropHigh = none) (h2 : p.dropLow = none) {a b : Arr K}
    (ha : optWeight (p.drop.map (drop t)) = .ok a)
    (hb : optWeight (p.dropVal.map (dropValuation t)) = .ok b) :
    ∃ w, weights t p = .ok w ∧ ∀ i < t.values.d0, ∀ c < t.values.d1, ∀ o < t.values.d2, ∀ d,
      d + 1 < t.values.d3 → w.get i c o d = (t.values.get i c o d * 0 + 1) *
        (if p.dropAbove.isSome || p.dropBelow.isSome then
          t.nanTri o d * bget a i c o d * bget b i c o d *
            Num.ofBool (dropX ((p.dropAbove.getD fun _ => .pinf) d)
              ((p.dropBelow.getD fun _ => 0) d) p.preserve t.values.d2 (fun o => ratio t i c o d) o)
        else t.nanTri o d * bget a i c o d * bget b i c o d) := by
  unfold weights dropAdjustment
  rw [nPeriodsWeight_all t _ hn]
  simp only [ha, hb, h1, h2, Option.isSome_none, bind, Except.bind, Bool.or_self,
    Bool.false_eq_true, if_false]
  refine ⟨_, rfl, ?_⟩
  intro i hi c hc o ho d hd
  have hm : 0 < t.values.d3 - 1 := by omega
  obtain ⟨e0, e1, e2, e3⟩ :=
    columns_dims (fun _ => t.values.map fun x => x * 0 + 1) (t.values.d3 - 1) hm
  simp only
  rw [bget_of_lt _ (by rw [e0]; exact hi) (by rw [e1]; exact hc) (by rw [e2]; exact ho)
    (by rw [e3]; omega), columns_map _ _ (by omega)]
  rfl

theorem observed_of_amount {t : Tri K} (fin : Tri.Finite t) (known : Known t) {i c o d : Nat}
    (hi : i < t.values.d0) (hc : c < t.values.d1) (ho : o < t.values.d2) (hd : d < t.values.d3)
    (h : amount t i c o d ≠ 0) :
    t.values.get i c o d * 0 + 1 = (1 : Num K) ∧ t.nanTri o d = 1 ∧
      t.values.get i c o d = .fin (amount t i c o d) := by
  unfold amount at h ⊢
  rcases Num.noInf_cases (fin i hi c hc o ho d hd) with e | ⟨a, e⟩
  · rw [e] at h; simp at h
  · refine ⟨by rw [e]; simp [Num.zero_def, Num.one_def], ?_, by rw [e]; rfl⟩
    rcases Tri.nanTri_eq t o d with e' | ⟨-, e'⟩
    · exact e'
    · have := known i hi c hc o ho d hd e'
      rw [e] at this; cases this

end Dev
end CL
