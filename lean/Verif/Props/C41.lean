import Verif.Model.Constant
import Verif.Lemmas.Methods
import Verif.Lemmas.Pattern
import Verif.Lemmas.AxSel
import Verif.Spec.Examples

set_option linter.unusedSectionVars false

/-! # C41: external patterns -/

namespace CL
namespace Tri
variable {K : Type} [Field K] [LinearOrder K] [IsStrictOrderedRing K]

private theorem lookupAll_eq {p : Int → Option K} {g : Int → K} : ∀ {l : List Int},
    (∀ a ∈ l, p a = some (g a)) → lookupAll p l = .ok (l.map g)
  | [], _ => rfl
  | a :: l, h => by
    have ih := lookupAll_eq (l := l) fun b hb => h b (List.mem_cons_of_mem _ hb)
    simp only [lookupAll, h a List.mem_cons_self, ih, bind, Except.bind, List.map_cons]

/-- A fitted pattern: one origin, all ages of `x` but the last, for the index and columns of `x`. -/
structure FittedFor (x f : Tri K) : Prop where
  wf : WF f
  index : f.kdims = x.kdims ∧ f.keyLabels = x.keyLabels
  columns : f.vdims = x.vdims
  origin : f.odims = x.odims.take 1
  ages : f.ddims = x.ddims.dropLast ∧ f.isVal = x.isVal
  grains : f.ograin = x.ograin ∧ f.dgrain = x.dgrain
  pattern : f.isPattern = true ∧ f.isCum = some false ∧ f.isAdditive = x.isAdditive
  date : f.vd = ultVal

private theorem ones_eq {x : Tri K} (wf : WF x) (ho : 1 ≤ x.odims.length)
    (hd : 2 ≤ x.ddims.length) :
    ∃ b s a : Tri K, x.iloc (.slc .all) (.slc .all) (.upto 1) (.upto (-1)) = .ok b ∧
      b.mulArr (Arr.scalar 0) = .ok s ∧ s.addArr (Arr.scalar 1) = .ok a ∧
      (∀ i c o d, a.values.get i c o d = 1) ∧ a.values.d0 = x.values.d0 ∧
      a.values.d1 = x.values.d1 ∧ a.values.d2 = 1 ∧ a.values.d3 = x.values.d3 - 1 ∧
      a.kdims = x.kdims ∧ a.vdims = x.vdims ∧ a.odims = x.odims.take 1 ∧
      a.ddims = x.ddims.dropLast ∧ a.keyLabels = x.keyLabels ∧ a.isVal = x.isVal ∧
      a.ograin = x.ograin ∧ a.dgrain = x.dgrain ∧ a.isAdditive = x.isAdditive := by
  obtain ⟨w0, w1, w2, w3⟩ := wf
  have hne : List.range (x.values.d3 - 1) ≠ [] := by
    intro hc
    have := congrArg List.length hc
    simp at this
    omega
  obtain ⟨v, el⟩ : ∃ v, x.iloc (.slc .all) (.slc .all) (.upto 1) (.upto (-1)) = .ok (x.picked
      (List.range x.values.d0) (List.range x.values.d1) (List.range 1)
      (List.range (x.values.d3 - 1)) v) := by
    have h1 := iloc_of_sel (t := x) (selS_all _).sel (selS_all _).sel (selS_upto _ 1 (by omega))
      (selS_upto_neg _ 1 (by omega) (by omega))
    rw [pick_eq _ _ _ _ _ (Or.inr hne)] at h1
    exact ⟨_, h1⟩
  set b := x.picked (List.range x.values.d0) (List.range x.values.d1) (List.range 1)
      (List.range (x.values.d3 - 1)) v with hb
  have b0 : b.values.d0 = x.values.d0 := by show (List.range _).length = _; simp
  have b1 : b.values.d1 = x.values.d1 := by show (List.range _).length = _; simp
  have b2 : b.values.d2 = 1 := rfl
  have b3 : b.values.d3 = x.values.d3 - 1 := by show (List.range _).length = _; simp
  have bdd : b.ddims = x.ddims.dropLast := by
    show (List.range (x.values.d3 - 1)).map (x.ddims.getD · 0) = _
    rw [w3]
    apply List.ext_getElem
    · simp
    · intro i h1 h2
      simp at h1
      simp [List.getElem_dropLast, List.getD_eq_getElem?_getD, show i < x.ddims.length by omega]
  have em : b.mulArr (Arr.scalar 0) = .ok (b.reval b.isPattern fun i c o d =>
      b.values.get i c o d * 0) := by
    unfold mulArr zipArr
    rw [Arr.zip_scalar]
    rfl
  set s := b.reval b.isPattern fun i c o d => b.values.get i c o d * 0 with hs
  have ea : s.addArr (Arr.scalar 1) = .ok (s.reval b.isPattern fun i c o d =>
      ((b.values.get i c o d * 0).nanToNum + (1 : Num K).nanToNum)).cleanup := by
    unfold addArr zipArr
    rw [Arr.zip_scalar]
    rfl
  set a := (s.reval b.isPattern fun i c o d =>
      ((b.values.get i c o d * 0).nanToNum + (1 : Num K).nanToNum)).cleanup with ha
  have hone : ∀ i c o d, a.values.get i c o d = 1 := by
    intro i c o d
    show (((b.values.get i c o d * 0).nanToNum + (1 : Num K).nanToNum) *
      (nanTri _ o d).nanToNum).numToNan = 1
    have hn : ∀ u : Tri K, u.values.d2 = 1 → u.values.d3 ≠ 0 → u.nanTri o d = 1 := by
      intro u h1 h2
      unfold nanTri
      rw [if_pos (by omega)]
    rw [hn _ (by exact b2) (by show b.values.d3 ≠ 0; omega)]
    have : b.values.get i c o d * 0 = .nan ∨ b.values.get i c o d * 0 = .fin 0 := by
      cases b.values.get i c o d with
      | nan => left; simp
      | fin x => right; simp [Num.zero_def]
      | pinf => left; simp [Num.zero_def, Num.pinf_mul_fin, Num.infMul]
      | ninf => left; simp [Num.zero_def, Num.ninf_mul_fin, Num.infMul]
    rcases this with h | h <;> rw [h] <;> simp [Num.one_def, Num.numToNan_fin]
  refine ⟨b, s, a, el, em, ea, hone, b0, b1, b2, b3, ?_, ?_, ?_, bdd, rfl, rfl, rfl, rfl, rfl⟩
  · show (List.range x.values.d0).map (x.kdims.getD · []) = _
    rw [w0]; exact map_getD_range _ _
  · show (List.range x.values.d1).map (x.vdims.getD · "") = _
    rw [w1]; exact map_getD_range _ _
  · show (List.range 1).map (x.odims.getD · 0) = _
    cases hxo : x.odims with
    | nil => rw [hxo] at ho; simp at ho
    | cons y l => simp

private theorem fit_eq {t x : Tri K}
    (hx : (if t.isCum = some false then t.incrToCum else t).valToDev = .ok x)
    (wf : WF x) (ho : 1 ≤ x.odims.length) (hd : 2 ≤ x.ddims.length) {p : Int → Option K} {g : Int → K}
    (hp : ∀ a ∈ x.ddims.dropLast, p a = some (g a)) (cdf : Bool) :
    ∃ f, t.developmentConstant p cdf = .ok f ∧ FittedFor x f ∧ f.values.d2 = 1 ∧
      f.values.d3 = x.ddims.length - 1 ∧
      ∀ i < x.kdims.length, ∀ c < x.vdims.length, ∀ j < x.ddims.length - 1,
        f.values.get i c 0 j =
          (constantRow cdf (x.ddims.dropLast.map g)).get 0 0 0 j := by
  obtain ⟨b, s, a, el, em, ea, hone, b0, b1, b2, b3, ak, av, ao, add, akl, aiv, aog, adg, aad⟩ :=
    ones_eq wf ho hd
  obtain ⟨w0, w1, w2, w3⟩ := wf
  have hl := lookupAll_eq (p := p) (g := g) (l := a.ddims) (by rw [add]; exact hp)
  have hfit : Arr.Fits (constantRow cdf (a.ddims.map g)) a.values := by
    refine ⟨Or.inr rfl, Or.inr rfl, Or.inl b2.symm, Or.inl ?_⟩
    show (a.ddims.map g).length = _
    rw [List.length_map, add, List.length_dropLast, b3, w3]
  have er : a.mulArr (constantRow cdf (a.ddims.map g)) = .ok { a with values := { a.values with
      get := fun i c o d => a.values.get i c o d *
        (constantRow cdf (a.ddims.map g)).get (Arr.bix 1 a.values.d0 i) (Arr.bix 1 a.values.d1 c)
          (Arr.bix 1 a.values.d2 o) (Arr.bix (a.ddims.map g).length a.values.d3 d) } } := by
    unfold mulArr zipArr
    rw [Arr.zip_fits _ hfit]
    rfl
  refine ⟨{ a with
    isPattern := true
    isCum := some false
    vd := ultVal
    values := { a.values with
      get := fun i c o d => a.values.get i c o d *
        (constantRow cdf (a.ddims.map g)).get (Arr.bix 1 a.values.d0 i) (Arr.bix 1 a.values.d1 c)
          (Arr.bix 1 a.values.d2 o) (Arr.bix (a.ddims.map g).length a.values.d3 d) } }, ?_, ⟨⟨?_, ?_, ?_, ?_⟩, ⟨ak, akl⟩, av, ao, ⟨add, aiv⟩, ⟨aog, adg⟩, ⟨rfl, rfl, aad⟩, rfl⟩,
    b2, ?_, ?_⟩
  · unfold developmentConstant
    simp only [hx, el, em, ea, hl, er, bind, Except.bind]
  · show a.values.d0 = a.kdims.length
    rw [b0, ak, w0]
  · show a.values.d1 = a.vdims.length
    rw [b1, av, w1]
  · show a.values.d2 = a.odims.length
    rw [b2, ao, List.length_take]; omega
  · show a.values.d3 = a.ddims.length
    rw [add, b3, w3, List.length_dropLast]
  · show a.values.d3 = _
    rw [b3, w3]
  · intro i hi c hc j hj
    show a.values.get i c 0 j * (constantRow cdf (a.ddims.map g)).get _ _ _
      (Arr.bix (a.ddims.map g).length a.values.d3 j) = _
    have h3 : (a.ddims.map g).length = a.values.d3 := by
      rw [List.length_map, add, List.length_dropLast, b3, w3]
    rw [hone, _root_.one_mul, h3, Arr.bix_self, add]
    rfl

/-- The given factor of age number `j`. -/
def given (x : Tri K) (g : Int → K) (j : Nat) : K := g (x.ddims.getD j 0)

private theorem given_eq {x : Tri K} {g : Int → K} {j : Nat} (hj : j < x.ddims.length - 1) :
    (x.ddims.dropLast.map g).getD j 0 = given x g j := by
  unfold given
  simp [List.getD_eq_getElem?_getD, hj, show j < x.ddims.length by omega]

/-- **C41 (age-to-age style).** `x` is the triangle after cumulating and turning it into a
development triangle.  The fitted factors are the given ones, whatever amounts the triangle holds. -/
theorem C41_ldf {t x : Tri K}
    (hx : (if t.isCum = some false then t.incrToCum else t).valToDev = .ok x)
    (wf : WF x) (ho : 1 ≤ x.odims.length) (hd : 2 ≤ x.ddims.length) {p : Int → Option K} {g : Int → K}
    (hp : ∀ a ∈ x.ddims.dropLast, p a = some (g a)) :
    ∃ f, t.developmentConstant p false = .ok f ∧ FittedFor x f ∧
      ∀ i < x.kdims.length, ∀ c < x.vdims.length, ∀ j < x.ddims.length - 1,
        f.values.get i c 0 j = .fin (given x g j) := by
  obtain ⟨f, h1, h2, -, -, h3⟩ := fit_eq hx wf ho hd hp false
  refine ⟨f, h1, h2, fun i hi c hc j hj => ?_⟩
  rw [h3 i hi c hc j hj]
  simp only [constantRow, Bool.false_eq_true, false_and, if_false]
  rw [given_eq hj]

/-- **C41 (age-to-ultimate style).** `cdf_`, the accumulated pattern, is the given one. -/
theorem C41_cdf {t x : Tri K}
    (hx : (if t.isCum = some false then t.incrToCum else t).valToDev = .ok x)
    (wf : WF x) (ho : 1 ≤ x.odims.length) (hd : 2 ≤ x.ddims.length) (hm : x.isAdditive = none)
    {p : Int → Option K} {g : Int → K}
    (hp : ∀ a ∈ x.ddims.dropLast, p a = some (g a)) (nz : ∀ a ∈ x.ddims.dropLast, g a ≠ 0) :
    ∃ f, t.developmentConstant p true = .ok f ∧ FittedFor x f ∧
      ∀ i < x.kdims.length, ∀ c < x.vdims.length, ∀ j < x.ddims.length - 1,
        f.incrToCum.values.get i c 0 j = .fin (given x g j) := by
  obtain ⟨f, h1, h2, f2, f3, h3⟩ := fit_eq hx wf ho hd hp true
  set L := x.ddims.length - 1 with hL
  have gnz : ∀ j < L, given x g j ≠ 0 := by
    intro j hj
    refine nz _ ?_
    rw [List.mem_iff_getElem]
    refine ⟨j, by simp; omega, ?_⟩
    simp [List.getElem_dropLast, List.getD_eq_getElem?_getD, show j < x.ddims.length by omega]
  have hcell : ∀ i < x.kdims.length, ∀ c < x.vdims.length, ∀ j < L, f.values.get i c 0 j =
      .fin (if j + 1 < L then given x g j / given x g (j + 1) else given x g j) := by
    intro i hi c hc j hj
    rw [h3 i hi c hc j hj]
    simp only [constantRow, true_and, List.length_map, List.length_dropLast]
    rw [given_eq hj]
    split_ifs with h
    · rw [given_eq h, Num.fin_div_fin_of_ne _ (gnz _ h)]
    · rfl
  refine ⟨f, h1, h2, fun i hi c hc j hj => ?_⟩
  have w := h2.wf
  have k0 : f.values.d0 = x.kdims.length := by rw [w.1, h2.index.1]
  have k1 : f.values.d1 = x.vdims.length := by rw [w.2.1, h2.columns]
  have fin : Finite f := by
    intro i hi c hc o ho d hd
    have : o = 0 := by omega
    subst this
    rw [hcell i (by omega) c (by omega) d (by omega)]
    trivial
  obtain ⟨e1, e2⟩ := incrToCum_pattern fin (by rw [h2.pattern.2.1]; decide) h2.pattern.1
    (by rw [h2.pattern.2.2, hm])
  rw [e1]
  show f.cumProdVals.get i c 0 j = _
  rw [e2 i (by omega) c (by omega) 0 (by omega) j (by omega)]
  have hn : f.nanTri 0 j = 1 := by
    unfold nanTri
    rw [if_pos (by omega)]
  have hfac : ∀ j < L, (if (f.values.get i c 0 j).amt = 0 then 1 else (f.values.get i c 0 j).amt) =
      if j + 1 < L then given x g j / given x g (j + 1) else given x g j := by
    intro j hj
    rw [hcell i hi c hc j hj, Num.amt_fin]
    split_ifs with h1 h2 h2
    · exact absurd h2 (div_ne_zero (gnz _ hj) (gnz _ h1))
    · rfl
    · exact absurd h2 (gnz _ hj)
    · rfl
  have hprod : ∀ k, k < L → ∏ j ∈ Finset.Ico (L - 1 - k) L,
      (if (f.values.get i c 0 j).amt = 0 then 1 else (f.values.get i c 0 j).amt) =
        given x g (L - 1 - k) := by
    intro k
    induction k with
    | zero =>
      intro hk
      have e : Finset.Ico (L - 1 - 0) L = {L - 1} := by
        ext y; simp only [Finset.mem_Ico, Finset.mem_singleton]; omega
      rw [e, Finset.prod_singleton, Nat.sub_zero]
      rw [hfac (L - 1) (by omega), if_neg (by omega)]
    | succ k ih =>
      intro hk
      have e : L - 1 - (k + 1) + 1 = L - 1 - k := by omega
      rw [Finset.prod_eq_prod_Ico_succ_bot (by omega), e, ih (by omega),
        hfac (L - 1 - (k + 1)) (by omega), if_pos (by omega), e,
        div_mul_cancel₀ _ (gnz (L - 1 - k) (by omega))]
  have := hprod (L - 1 - j) (by omega)
  rw [show L - 1 - (L - 1 - j) = j by omega] at this
  rw [f3, this, hn, _root_.mul_one]

/-- For development triangles the first step is free. -/
theorem C41_development {t : Tri K} (h : t.isVal = false) :
    ∃ x, (if t.isCum = some false then t.incrToCum else t).valToDev = .ok x ∧
      x.ddims = t.ddims ∧ x.odims = t.odims ∧ x.kdims = t.kdims ∧ x.vdims = t.vdims ∧
      x.isAdditive = t.isAdditive ∧ (WF t → WF x) := by
  by_cases hc : t.isCum = some false
  · rw [if_pos hc]
    have hv : t.incrToCum.isVal = false := by
      unfold incrToCum; split_ifs <;> first | exact h | (split <;> exact h)
    refine ⟨t.incrToCum, by unfold valToDev; rw [if_pos hv], ?_⟩
    unfold incrToCum
    split_ifs <;> first | exact ⟨rfl, rfl, rfl, rfl, rfl, fun w => w⟩ |
      (split <;> exact ⟨rfl, rfl, rfl, rfl, rfl, fun w => w⟩)
  · rw [if_neg hc]
    exact ⟨t, by unfold valToDev; rw [if_pos h], rfl, rfl, rfl, rfl, rfl, id⟩

/-- An age without a factor is a `KeyError`. -/
theorem C41_missing_age {t x : Tri K}
    (hx : (if t.isCum = some false then t.incrToCum else t).valToDev = .ok x)
    (wf : WF x) (ho : 1 ≤ x.odims.length) (hd : 2 ≤ x.ddims.length) {p : Int → Option K}
    (hp : ∃ a ∈ x.ddims.dropLast, p a = none) (cdf : Bool) :
    t.developmentConstant p cdf = .error .keyError := by
  obtain ⟨b, s, a, el, em, ea, -, -, -, -, -, -, -, -, add, -⟩ := ones_eq wf ho hd
  have hl : ∀ l : List Int, (∃ a ∈ l, p a = none) → lookupAll p l = .error .keyError := by
    intro l
    induction l with
    | nil => rintro ⟨a, ha, -⟩; cases ha
    | cons y l ih =>
      rintro ⟨a, ha, hn⟩
      unfold lookupAll
      cases hy : p y with
      | none => rfl
      | some z =>
        rcases List.mem_cons.1 ha with rfl | ha
        · rw [hn] at hy; cases hy
        · simp only [ih ⟨a, ha, hn⟩, bind, Except.bind]
  unfold developmentConstant
  simp only [hx, el, em, ea, add, hl _ hp, bind, Except.bind]

/-- Age-to-ultimate factors 3, 2 for the two first ages of an incremental triangle: the age-to-age
factors are 3/2 and 2, and `cdf_` is 3, 2 again. -/
example : ∃ f, (Ex.tri3 (some false) Ex.cum3).developmentConstant
      (fun a => if a = 12 then some 3 else if a = 24 then some 2 else none) true = .ok f ∧
    decide (f.ddims = [12, 24] ∧ f.values.get 0 0 0 0 = .fin (3 / 2) ∧ f.values.get 0 0 0 1 = .fin 2 ∧
      f.incrToCum.values.get 0 0 0 0 = .fin 3 ∧ f.incrToCum.values.get 0 0 0 1 = .fin 2) = true :=
  ok_of _ (by decide +kernel)

end Tri
end CL
