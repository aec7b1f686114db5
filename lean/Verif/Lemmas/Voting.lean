import Verif.Model.Voting
import Verif.Spec.FullTri
import Verif.Lemmas.BcastUp
import Verif.Lemmas.Mack

set_option linter.unusedSectionVars false

/-! # Adding up weighted ultimates -/

namespace CL
variable {K : Type} [Field K] [LinearOrder K] [IsStrictOrderedRing K]

namespace Tri
variable {t u v : Tri K} {U V : Nat → Nat → Nat → K}

/-- `u` holds the amount `U i c o` of every origin of `t`; an amount of zero may be missing. -/
structure UltAmt (t u : Tri K) (U : Nat → Nat → Nat → K) : Prop where
  wf : WF u
  index : u.kdims = t.kdims
  keyLabels : u.keyLabels = t.keyLabels
  columns : u.vdims = t.vdims
  origins : u.odims = t.odims
  one : u.ddims.length = 1
  ograin : u.ograin = t.ograin
  date : u.vd = ultVal
  noPattern : u.isPattern = false
  cells : ∀ i < t.kdims.length, ∀ c < t.vdims.length, ∀ o < t.odims.length,
    (u.values.get i c o 0).NoInf ∧ (u.values.get i c o 0).amt = U i c o

theorem UltAmounts.ultAmt (h : UltAmounts t u U) : UltAmt t u U :=
  ⟨h.wf, h.index, h.keyLabels, h.columns, h.origins, h.one, h.ograin, h.date, h.noPattern,
    fun i hi c hc o ho => by
      rw [h.cells i hi c hc o ho]
      exact ⟨Num.noInf_numToNan (Num.noInf_fin _), by rw [Num.amt_numToNan]; rfl⟩⟩

/-- Replacing the values. -/
theorem UltAmt.withValues (h : UltAmt t u U) {a : Arr K} (ha : a.Dims t.kdims.length t.vdims.length t.odims.length 1)
    (hV : ∀ i < t.kdims.length, ∀ c < t.vdims.length, ∀ o < t.odims.length,
      (a.get i c o 0).NoInf ∧ (a.get i c o 0).amt = V i c o) :
    UltAmt t { u with values := a } V := by
  obtain ⟨h0, h1, h2, h3⟩ := ha
  exact ⟨⟨by show a.d0 = u.kdims.length; rw [h0, h.index], by show a.d1 = u.vdims.length; rw [h1, h.columns],
    by show a.d2 = u.odims.length; rw [h2, h.origins], by show a.d3 = u.ddims.length; rw [h3, h.one]⟩,
    h.index, h.keyLabels, h.columns, h.origins, h.one, h.ograin, h.date, h.noPattern, hV⟩

theorem UltAmt.dims (h : UltAmt t u U) : u.values.Dims t.kdims.length t.vdims.length t.odims.length 1 :=
  ⟨by rw [h.wf.1, h.index], by rw [h.wf.2.1, h.columns], by rw [h.wf.2.2.1, h.origins], by rw [h.wf.2.2.2, h.one]⟩

theorem UltAmt.mul (h : UltAmt t u U) {a : Arr K} (ha : a.Up t.kdims.length t.vdims.length t.odims.length 1)
    {W : Nat → Nat → Nat → K}
    (hW : ∀ i < t.kdims.length, ∀ c < t.vdims.length, ∀ o < t.odims.length,
      a.lift t.kdims.length t.vdims.length t.odims.length i c o 0 = .fin (W i c o)) :
    ∃ r, u.mulArr a = .ok r ∧ UltAmt t r fun i c o => W i c o * U i c o := by
  obtain ⟨z, hz, zd, zc⟩ := Arr.zip_up' (· * ·) h.dims ha
  refine ⟨{ u with values := z }, ?_, h.withValues zd ?_⟩
  · unfold mulArr zipArr
    rw [hz]; rfl
  · intro i hi c hc o ho
    obtain ⟨h1, h2⟩ := h.cells i hi c hc o ho
    rw [zc, hW i hi c hc o ho]
    rcases Num.noInf_cases h1 with e | ⟨x, e⟩
    · rw [e] at h2 ⊢
      rw [Num.nan_mul, ← h2]
      exact ⟨Num.noInf_nan, (mul_zero _).symm⟩
    · rw [e] at h2 ⊢
      rw [Num.fin_mul_fin, ← h2]
      exact ⟨Num.noInf_fin _, mul_comm _ _⟩

theorem UltAmt.div (h : UltAmt t u U) {a : Arr K} (ha : a.Up t.kdims.length t.vdims.length t.odims.length 1)
    {W : Nat → Nat → Nat → K}
    (hW : ∀ i < t.kdims.length, ∀ c < t.vdims.length, ∀ o < t.odims.length,
      a.lift t.kdims.length t.vdims.length t.odims.length i c o 0 = .fin (W i c o) ∧ W i c o ≠ 0) :
    ∃ r, u.divArr a = .ok r ∧ UltAmt t r fun i c o => U i c o / W i c o := by
  obtain ⟨z, hz, zd, zc⟩ := Arr.zip_up' (· / ·) h.dims ha
  refine ⟨{ u with values := z }, ?_, h.withValues zd ?_⟩
  · unfold divArr zipArr
    rw [hz]; rfl
  · intro i hi c hc o ho
    obtain ⟨h1, h2⟩ := h.cells i hi c hc o ho
    obtain ⟨h3, h4⟩ := hW i hi c hc o ho
    rw [zc, h3]
    rcases Num.noInf_cases h1 with e | ⟨x, e⟩
    · rw [e] at h2 ⊢
      rw [show (Num.nan : Num K) / Num.fin (W i c o) = .nan by rfl, ← h2]
      exact ⟨Num.noInf_nan, (zero_div _).symm⟩
    · rw [e] at h2 ⊢
      rw [Num.fin_div_fin_of_ne _ h4, ← h2]
      exact ⟨Num.noInf_fin _, rfl⟩

theorem UltAmt.add (h : UltAmt t u U) (h' : UltAmt t v V) :
    ∃ r, u.add v = .ok r ∧ UltAmt t r fun i c o => U i c o + V i c o := by
  have hc : Compat u v := ⟨h.wf, h'.wf, by rw [h.ograin, h'.ograin],
    Or.inr (by rw [h.dims.2.2.2, h'.dims.2.2.2]; exact min_le_left 1 1), by rw [h.keyLabels, h'.keyLabels],
    Or.inl (by rw [h.index, h'.index]), Or.inl (by rw [h.columns, h'.columns]),
    Or.inl (by rw [h.origins, h'.origins]), Or.inr (Or.inl ⟨h'.one, by rw [h.one]⟩),
    fun h1 => absurd h1 (by rw [h.one]; omega)⟩
  rw [add_compat hc]
  obtain ⟨z, hz⟩ : ∃ z, z = combined (fun a b => a.nanToNum + b.nanToNum) u v := ⟨_, rfl⟩
  have lk : longer u.kdims v.kdims = t.kdims := by rw [h.index, h'.index, longer_self]
  have lv : longer u.vdims v.vdims = t.vdims := by rw [h.columns, h'.columns, longer_self]
  have lo : longer u.odims v.odims = t.odims := by rw [h.origins, h'.origins, longer_self]
  have ld : longer u.ddims v.ddims = u.ddims := by
    unfold longer
    rw [if_neg (by rw [h.one, h'.one]; omega)]
  rw [← hz]
  have zl : z.kdims = t.kdims ∧ z.vdims = t.vdims ∧ z.odims = t.odims ∧ z.ddims = u.ddims ∧
      z.keyLabels = t.keyLabels ∧ z.ograin = t.ograin ∧ z.vd = ultVal ∧ z.isPattern = false := by
    rw [hz]
    refine ⟨lk, lv, lo, ld, h.keyLabels, h.ograin, ?_, ?_⟩
    · show max u.vd v.vd = _
      rw [h.date, h'.date, max_self]
    · show (u.isPattern && v.isPattern) = _
      rw [h.noPattern]; rfl
  obtain ⟨z1, z2, z3, z4, z5, z6, z7, z8⟩ := zl
  have zw : WF z := by rw [hz]; exact wf_combined _ _ _
  refine ⟨_, rfl, zw, z1, z5, z2, z3, by show z.ddims.length = 1; rw [z4, h.one], z6, z7, z8, ?_⟩
  intro i hi c hc o ho
  obtain ⟨h1, h2⟩ := h.cells i hi c hc o ho
  obtain ⟨h3, h4⟩ := h'.cells i hi c hc o ho
  have en : z.nanTri o 0 = 1 := by
    unfold nanTri
    rw [if_pos (by rw [zw.2.2.2, z4, h.one, zw.2.2.1, z3]; omega)]
  have ez : z.values.get i c o 0 = (u.values.get i c o 0).nanToNum + (v.values.get i c o 0).nanToNum := by
    rw [hz]
    unfold combined
    simp only
    rw [lk, lv, lo, ld, h.one, h.dims.1, h.dims.2.1, h.dims.2.2.1, h.dims.2.2.2, h'.dims.1, h'.dims.2.1,
      h'.dims.2.2.1, h'.dims.2.2.2]
    simp only [Arr.bix_self]
  have nn : ∀ {x : Num K}, x.NoInf → x.nanToNum = .fin x.amt := by
    intro x hx
    rcases Num.noInf_cases hx with e | ⟨y, e⟩ <;> rw [e] <;> rfl
  show ((z.values.get i c o 0 * (z.nanTri o 0).nanToNum).numToNan).NoInf ∧
    ((z.values.get i c o 0 * (z.nanTri o 0).nanToNum).numToNan).amt = _
  rw [en, ez, nn h1, nn h3, h2, h4, Num.fin_add_fin, show ((1 : Num K)).nanToNum = 1 from rfl, Num.one_def,
    Num.fin_mul_fin, mul_one]
  exact ⟨Num.noInf_numToNan (Num.noInf_fin _), by rw [Num.amt_numToNan]; rfl⟩

/-- Adding up. -/
theorem UltAmt.sum {us : List (Tri K)} {Us : List (Nat → Nat → Nat → K)} (h : UltAmt t u U)
    (hs : List.Forall₂ (UltAmt t) us Us) :
    ∃ r, us.foldlM Tri.add u = .ok r ∧ UltAmt t r fun i c o => U i c o + (Us.map fun V => V i c o).sum := by
  induction hs generalizing u U with
  | nil => exact ⟨u, rfl, by simpa using h⟩
  | @cons v V us Us hv _ ih =>
    obtain ⟨x, hx, xu⟩ := h.add hv
    obtain ⟨r, hr, ru⟩ := ih xu
    refine ⟨r, ?_, ?_⟩
    · rw [List.foldlM_cons, hx]; exact hr
    · refine ⟨ru.wf, ru.index, ru.keyLabels, ru.columns, ru.origins, ru.one, ru.ograin, ru.date, ru.noPattern, ?_⟩
      intro i hi c hc o ho
      obtain ⟨h1, h2⟩ := ru.cells i hi c hc o ho
      exact ⟨h1, by rw [h2, List.map_cons, List.sum_cons, add_assoc]⟩

end Tri

/-- The weight of member `j` for every cell, whatever the number of axes of the array. -/
def Weights.Are (w : Weights K) (t : Tri K) (m : Nat) (W : Nat → Nat → Nat → Nat → K) : Prop :=
  match w with
  | .mat n m' get => n = t.odims.length ∧ m' = m ∧ ∀ i < t.kdims.length, ∀ c < t.vdims.length,
      ∀ o < n, ∀ j < m, get o j = .fin (W i c o j)
  | .cube v n m' get => v = t.vdims.length ∧ n = t.odims.length ∧ m' = m ∧ ∀ i < t.kdims.length,
      ∀ c < v, ∀ o < n, ∀ j < m, get c o j = .fin (W i c o j)
  | .full k v n m' get => k = t.kdims.length ∧ v = t.vdims.length ∧ n = t.odims.length ∧ m' = m ∧
      ∀ i < k, ∀ c < v, ∀ o < n, ∀ j < m, get i c o j = .fin (W i c o j)

namespace Weights
variable {w : Weights K} {t : Tri K} {m : Nat} {W : Nat → Nat → Nat → Nat → K}

theorem Are.origins (h : w.Are t m W) : w.origins = t.odims.length := by
  cases w with
  | mat n m' get => exact h.1
  | cube v n m' get => exact h.2.1
  | full k v n m' get => exact h.2.2.1

theorem Are.members (h : w.Are t m W) : w.members = m := by
  cases w with
  | mat n m' get => exact h.2.1
  | cube v n m' get => exact h.2.2.1
  | full k v n m' get => exact h.2.2.2.1

theorem Are.fits (h : w.Are t m W) (hw : Tri.WF t) : w.fits t = true := by
  cases w with
  | mat n m' get => rfl
  | cube v n m' get => rfl
  | full k v n m' get =>
    show (k == t.values.d0 && v == t.values.d1) = true
    rw [hw.1, hw.2.1, h.1, h.2.1]
    simp

theorem Are.slice (h : w.Are t m W) (hw : Tri.WF t) {j : Nat} (hj : j < m) :
    (w.slice t j).Up t.kdims.length t.vdims.length t.odims.length 1 ∧
    ∀ i < t.kdims.length, ∀ c < t.vdims.length, ∀ o < t.odims.length,
      (w.slice t j).lift t.kdims.length t.vdims.length t.odims.length i c o 0 = .fin (W i c o j) := by
  cases w with
  | mat n m' get =>
    obtain ⟨rfl, rfl, hc⟩ := h
    refine ⟨⟨Or.inr rfl, Or.inl hw.2.1, Or.inl rfl, rfl⟩, ?_⟩
    intro i hi c hcc o ho
    unfold Arr.lift slice
    simp only [Arr.bix_self]
    exact hc i hi c hcc o ho j hj
  | cube v n m' get =>
    obtain ⟨rfl, rfl, rfl, hc⟩ := h
    refine ⟨⟨Or.inl hw.1, Or.inl rfl, Or.inl rfl, rfl⟩, ?_⟩
    intro i hi c hcc o ho
    unfold Arr.lift slice
    simp only [Arr.bix_self]
    exact hc i hi c hcc o ho j hj
  | full k v n m' get =>
    obtain ⟨rfl, rfl, rfl, rfl, hc⟩ := h
    refine ⟨⟨Or.inl rfl, Or.inl rfl, Or.inl rfl, rfl⟩, ?_⟩
    intro i hi c hcc o ho
    unfold Arr.lift slice
    simp only [Arr.bix_self]
    exact hc i hi c hcc o ho j hj

theorem Are.total (h : w.Are t m W) (hw : Tri.WF t) :
    (w.total t).Up t.kdims.length t.vdims.length t.odims.length 1 ∧
    ∀ i < t.kdims.length, ∀ c < t.vdims.length, ∀ o < t.odims.length,
      (w.total t).lift t.kdims.length t.vdims.length t.odims.length i c o 0 =
        .fin (∑ j ∈ Finset.range m, W i c o j) := by
  cases w with
  | mat n m' get =>
    obtain ⟨rfl, rfl, hc⟩ := h
    refine ⟨⟨Or.inr rfl, Or.inl hw.2.1, Or.inl rfl, rfl⟩, ?_⟩
    intro i hi c hcc o ho
    unfold Arr.lift total
    simp only [Arr.bix_self]
    rw [← Num.sum_fin]
    exact Finset.sum_congr rfl fun j hj => hc i hi c hcc o ho j (Finset.mem_range.1 hj)
  | cube v n m' get =>
    obtain ⟨rfl, rfl, rfl, hc⟩ := h
    refine ⟨⟨Or.inl hw.1, Or.inl rfl, Or.inl rfl, rfl⟩, ?_⟩
    intro i hi c hcc o ho
    unfold Arr.lift total
    simp only [Arr.bix_self]
    rw [← Num.sum_fin]
    exact Finset.sum_congr rfl fun j hj => hc i hi c hcc o ho j (Finset.mem_range.1 hj)
  | full k v n m' get =>
    obtain ⟨rfl, rfl, rfl, rfl, hc⟩ := h
    refine ⟨⟨Or.inl rfl, Or.inl rfl, Or.inl rfl, rfl⟩, ?_⟩
    intro i hi c hcc o ho
    unfold Arr.lift total
    simp only [Arr.bix_self]
    rw [← Num.sum_fin]
    exact Finset.sum_congr rfl fun j hj => hc i hi c hcc o ho j (Finset.mem_range.1 hj)

end Weights

/-- The list of weighted member ultimates. -/
theorem weighted_terms {w : Weights K} {t : Tri K} {m : Nat} {W : Nat → Nat → Nat → Nat → K} (h : w.Are t m W)
    (hw : Tri.WF t) {gs : List (Tri K → Except Err (Tri K))} {Us : List (Nat → Nat → Nat → K)}
    (hg : List.Forall₂ (fun g U => ∃ u, g t = .ok u ∧ Tri.UltAmt t u U) gs Us) :
    ∀ s, s + gs.length ≤ m → ∃ us, (gs.zipIdx s).mapM (fun p => do
        let u ← p.1 t
        u.mulArr (w.slice t p.2)) = .ok us ∧
      List.Forall₂ (Tri.UltAmt t) us ((Us.zipIdx s).map fun p i c o => W i c o p.2 * p.1 i c o) := by
  induction hg with
  | nil => intro s _; exact ⟨[], rfl, List.Forall₂.nil⟩
  | @cons g U gs Us hgU _ ih =>
    intro s hs
    rw [List.length_cons] at hs
    obtain ⟨u, hu, hU⟩ := hgU
    obtain ⟨us, h1, h2⟩ := ih (s + 1) (by omega)
    obtain ⟨hup, hl⟩ := h.slice hw (j := s) (by omega)
    obtain ⟨r, hr, ru⟩ := hU.mul hup hl
    refine ⟨r :: us, ?_, ?_⟩
    · rw [List.zipIdx_cons, List.mapM_cons]
      simp only [bind, Except.bind] at h1 ⊢
      rw [hu]
      simp only
      rw [hr]
      simp only
      rw [h1]
      rfl
    · rw [List.zipIdx_cons, List.map_cons]
      exact List.Forall₂.cons ru h2

theorem zipIdx_sum (f : Nat → K → K) (l : List K) (s : Nat) :
    ((l.zipIdx s).map fun p => f p.2 p.1).sum = ∑ j ∈ Finset.range l.length, f (s + j) (l.getD j 0) := by
  induction l generalizing s with
  | nil => simp
  | cons a l ih =>
    rw [List.zipIdx_cons, List.map_cons, List.sum_cons, ih, List.length_cons, Finset.sum_range_succ']
    simp only [List.getD_cons_succ, List.getD_cons_zero, add_zero]
    rw [add_comm]
    congr 1
    refine Finset.sum_congr rfl fun j _ => ?_
    rw [add_right_comm, add_assoc]

/-- The ultimate of an ensemble with `k` members left of `m`: the first `k` weights are used and the sum
is divided by all of them. -/
theorem ultimate_spec {v : Voting K} {t : Tri K} {m : Nat} {W : Nat → Nat → Nat → Nat → K}
    (h : v.weights.Are t m W) (hw : Tri.WF t) {Us : List (Nat → Nat → Nat → K)}
    (hg : List.Forall₂ (fun g U => ∃ u, g t = .ok u ∧ Tri.UltAmt t u U) v.fitted Us) (hm : Us.length ≤ m)
    (hne : Us ≠ []) (hW : ∀ i < t.kdims.length, ∀ c < t.vdims.length, ∀ o < t.odims.length,
      ∑ j ∈ Finset.range m, W i c o j ≠ 0) :
    ∃ r, v.ultimate t = .ok (some r) ∧ Tri.UltAmt t r fun i c o =>
      (∑ j ∈ Finset.range Us.length, W i c o j * (Us.getD j fun _ _ _ => 0) i c o) /
        ∑ j ∈ Finset.range m, W i c o j := by
  obtain ⟨us, h1, h2⟩ := weighted_terms h hw hg 0 (by rw [Nat.zero_add, hg.length_eq]; exact hm)
  cases h2' : Us with
  | nil => exact absurd h2' hne
  | cons U Us' =>
    rw [h2', List.zipIdx_cons, List.map_cons] at h2
    cases h2 with
    | @cons u _ us' _ hu hus =>
      obtain ⟨s, hs, su⟩ := hu.sum hus
      obtain ⟨tup, tl⟩ := h.total hw
      obtain ⟨r, hr, ru⟩ := su.div tup fun i hi c hc o ho => ⟨tl i hi c hc o ho, hW i hi c hc o ho⟩
      refine ⟨r, ?_, ?_⟩
      · unfold Voting.ultimate
        rw [if_pos (h.fits hw)]
        simp only [bind, Except.bind] at h1 ⊢
        rw [h1]
        simp only [sumTris, bind, Except.bind]
        rw [hs]
        simp only
        rw [hr]
      · refine ⟨ru.wf, ru.index, ru.keyLabels, ru.columns, ru.origins, ru.one, ru.ograin, ru.date, ru.noPattern, ?_⟩
        intro i hi c hc o ho
        obtain ⟨h3, h4⟩ := ru.cells i hi c hc o ho
        refine ⟨h3, ?_⟩
        rw [h4]
        congr 1
        have := zipIdx_sum (fun j x => W i c o j * x) ((U :: Us').map fun V => V i c o) 0
        rw [List.map_cons, List.zipIdx_cons, List.map_cons, List.sum_cons, List.length_cons, List.length_map] at this
        simp only [Nat.zero_add] at this
        rw [List.length_cons]
        have e : ∀ j, (U i c o :: Us'.map fun V => V i c o).getD j 0 = ((U :: Us').getD j fun _ _ _ => 0) i c o := by
          intro j
          rw [← List.map_cons (f := fun V : Nat → Nat → Nat → K => V i c o), List.getD_eq_getElem?_getD,
            List.getD_eq_getElem?_getD, List.getElem?_map]
          cases (U :: Us')[j]? <;> rfl
        simp only [e] at this
        rw [← this]
        congr 2
        rw [List.map_map, List.zipIdx_map, List.map_map]
        rfl

end CL
