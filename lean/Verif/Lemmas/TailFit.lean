import Verif.Model.TailFit
import Verif.Props.C37
import Verif.Props.C56
import Verif.Lemmas.Clark

set_option linter.unusedSectionVars false

/-! # Ages counted by fitted tails -/

namespace CL
namespace Tail

section
variable {l : List Int} {k : Nat}

theorem filter_ge (h : l.Pairwise (· < ·)) (hk : k < l.length) :
    (l.filter fun d => decide (l.getD k 0 ≤ d)).length = l.length - k := by
  have e : l.filter (fun d => decide (l.getD k 0 ≤ d)) = l.drop k := by
    conv_lhs => rw [← List.take_append_drop k l]
    rw [List.filter_append, List.filter_eq_nil_iff.2, List.filter_eq_self.2, List.nil_append]
    · intro x hx
      obtain ⟨i, hi, rfl⟩ := List.mem_iff_getElem.1 hx
      rw [List.getElem_drop, decide_eq_true_eq, List.take_append_drop, List.getD_eq_getElem _ _ hk]
      rw [List.length_drop] at hi
      rcases Nat.eq_zero_or_pos i with rfl | h0
      · simp
      · exact (List.pairwise_iff_getElem.1 h k (k + i) hk (by omega) (by omega)).le
    · intro x hx
      obtain ⟨i, hi, rfl⟩ := List.mem_iff_getElem.1 hx
      rw [List.length_take] at hi
      rw [List.getElem_take, decide_eq_true_eq, List.take_append_drop, List.getD_eq_getElem _ _ hk, not_le]
      exact List.pairwise_iff_getElem.1 h i k (by omega) hk (by omega)
  rw [e, List.length_drop]

theorem filter_lt (h : l.Pairwise (· < ·)) (hk : k < l.length) :
    (l.filter fun d => decide (d < l.getD k 0)).length = k := by
  have h1 := filter_ge h hk
  have h2 := List.length_eq_length_filter_add (l := l) fun d => decide (l.getD k 0 ≤ d)
  have h3 : (l.filter fun d => !decide (l.getD k 0 ≤ d)) = l.filter fun d => decide (d < l.getD k 0) := by
    apply List.filter_congr
    intro x _
    by_cases hx : x < l.getD k 0
    · rw [decide_eq_true hx, decide_eq_false (not_le.2 hx)]; rfl
    · rw [decide_eq_false hx, decide_eq_true (not_lt.1 hx)]; rfl
  rw [h3] at h2
  omega

theorem filter_le (h : l.Pairwise (· < ·)) (hk : k < l.length) :
    (l.filter fun d => decide (d ≤ l.getD k 0)).length = k + 1 := by
  by_cases hk' : k + 1 < l.length
  · rw [← filter_lt h hk']
    congr 1
    apply List.filter_congr
    intro x hx
    obtain ⟨i, hi, rfl⟩ := List.mem_iff_getElem.1 hx
    rw [List.getD_eq_getElem _ _ hk, List.getD_eq_getElem _ _ hk', decide_eq_decide]
    have hmono := List.pairwise_iff_getElem.1 h
    constructor
    · intro hle
      exact lt_of_le_of_lt hle (hmono k (k + 1) hk hk' (by omega))
    · intro hlt
      by_contra hc
      rw [not_le] at hc
      have hki : k < i := by
        by_contra h5
        rcases Nat.eq_or_lt_of_le (not_lt.1 h5) with h6 | h6
        · subst h6; exact lt_irrefl _ hc
        · exact absurd (hmono i k hi hk h6) (by omega)
      rcases Nat.eq_or_lt_of_le (show k + 1 ≤ i by omega) with h6 | h6
      · subst h6; exact lt_irrefl _ hlt
      · exact absurd (hmono (k + 1) i hk' hi h6) (by omega)
  · rw [List.filter_eq_self.2]
    · omega
    · intro x hx
      obtain ⟨i, hi, rfl⟩ := List.mem_iff_getElem.1 hx
      rw [List.getD_eq_getElem _ _ hk, decide_eq_true_eq]
      rcases Nat.eq_or_lt_of_le (show i ≤ k by omega) with h6 | h6
      · subst h6; exact le_rfl
      · exact (List.pairwise_iff_getElem.1 h i k hi hk h6).le

end

/-- The age at position `k`, other than the last, is chosen, or the last but one by default. -/
def PickedAt (t : Tri ℝ) (age : Option Int) (k : Nat) : Prop :=
  k + 1 < t.ddims.length ∧
    (age = none ∧ k + 2 = t.ddims.length ∨ age = some (t.ddims.getD k 0))

variable {t f : Tri ℝ} {a : Int} {n D q : Nat}

theorem ages_increasing (h : t.Grid a n D q) : t.ddims.Pairwise (· < ·) := by
  rw [h.ddims, List.pairwise_map]
  refine List.Pairwise.imp ?_ List.pairwise_lt_range
  intro x y hxy
  have := Tri.months_pos t.dgrain
  have h2 : (x + 1) * t.dgrain.months < (y + 1) * t.dgrain.months := Nat.mul_lt_mul_of_pos_right (by omega) this
  exact_mod_cast h2

theorem earliestIdx_eq (h : t.Grid a n D q) {age : Option Int} {k : Nat} (hk : PickedAt t age k) :
    earliestIdx t age = .ok k := by
  obtain ⟨h1, h2⟩ := hk
  have hD := h.lenD
  rcases h2 with ⟨rfl, h2⟩ | rfl
  · unfold earliestIdx
    simp only
    rw [if_neg (by omega)]
    congr 1
    omega
  · unfold earliestIdx
    simp only
    have hm := Tri.months_pos t.dgrain
    have e : (t.ddims.getD k 0).tdiv t.dgrain.months - 1 = (k : Int) := by
      rw [h.getDv (by omega)]
      push_cast
      rw [Int.mul_tdiv_cancel _ (by omega)]
      omega
    rw [e, if_neg (by omega), if_neg (by omega), if_neg (by omega)]
    rfl

/-- The attachment age. -/
theorem picked_age (h : t.Grid a n D q) {age : Option Int} {k : Nat} (hk : PickedAt t age k) :
    attachAge t age = t.ddims.getD k 0 := by
  obtain ⟨h1, h2⟩ := hk
  unfold attachAge
  rcases h2 with ⟨rfl, h2⟩ | rfl
  · simp only
    rw [show t.ddims.length - 2 = k by omega]
  · simp only
    rw [if_neg]
    have hm := Tri.months_pos t.dgrain
    rw [h.getDv (by rw [← h.lenD]; omega)]
    have : 0 < (k + 1) * t.dgrain.months := Nat.mul_pos (by omega) hm
    omega

theorem getD_le (h : t.Grid a n D q) {e j : Nat} (he : e ≤ j) (hj : j < D) : t.ddims.getD e 0 ≤ t.ddims.getD j 0 := by
  rw [h.getDv (by omega), h.getDv hj]
  have : (e + 1) * t.dgrain.months ≤ (j + 1) * t.dgrain.months := Nat.mul_le_mul_right _ (by omega)
  exact_mod_cast this

theorem checkAges_eq (h : t.Grid a n D q) {earliest attach : Option Int} {e j : Nat} (he : PickedAt t earliest e)
    (hj : PickedAt t attach j) (hej : e ≤ j) (hn : attach = none ∨ earliest ≠ none) :
    checkAges earliest attach = .ok () := by
  unfold checkAges
  rcases hj with ⟨j1, ⟨rfl, j2⟩ | rfl⟩
  · rfl
  · rcases he with ⟨e1, ⟨rfl, e2⟩ | rfl⟩
    · exact absurd rfl (hn.resolve_left (by simp))
    · simp only
      have := getD_le h hej (by rw [← h.lenD]; omega)
      split_ifs <;> first | rfl | omega

/-- The values of the fitted part. -/
theorem bondyFitted_eq {x b : ℝ} (hx : 0 < x) (hb : b ≠ 1) {m k : Nat} (hm : 1 ≤ m) :
    bondyFitted x b m k = .fin (if k < m then x ^ (b ^ k) else x ^ (b ^ m / (1 - b))) := by
  unfold bondyFitted
  have h1 : 1 - b ≠ 0 := fun h => hb (by linarith)
  split_ifs with h
  · rfl
  · rw [Num.fin_div_fin_of_ne _ h1]
    show Num.fin _ = _
    rw [← Real.rpow_mul hx.le]
    congr 2
    obtain ⟨m', rfl⟩ : ∃ m', m = m' + 1 := ⟨m - 1, by omega⟩
    rw [Nat.add_sub_cancel, pow_succ]
    field_simp

/-- Values and labels after `TailBondy`. -/
theorem bondy_eq (h : t.Grid a n D q) (hl : LinkPattern t f) {earliest attach : Option Int} {e j : Nat}
    (he : PickedAt t earliest e) (hj : PickedAt t attach j) (hej : e ≤ j) (hn : attach = none ∨ earliest ≠ none)
    {b : Nat → Nat → ℝ} (hb : ∀ i c, b i c ≠ 1) {x : Nat → Nat → ℝ}
    (hx : ∀ i < f.values.d0, ∀ c < f.values.d1, 0 < x i c ∧ f.values.get i c 0 e = .fin (x i c)) (p : Nat) :
    ∃ g last, f.ddims.getLast? = some last ∧ bondy b t f earliest attach p = .ok g ∧
      g = { f with
        ddims := f.ddims ++ (List.range (addedPeriods p t.dgrain + 1)).map fun k : Nat =>
          last + (k + 1) * (t.dgrain.months : Int)
        values := { f.values with
          d3 := D + 1
          get := g.values.get } } ∧
      (∀ i c o d, d ≤ j → g.values.get i c o d = f.values.get i c o d) ∧
      ∀ i < f.values.d0, ∀ c < f.values.d1, ∀ o d, j < d →
        g.values.get i c o d = .fin (if d < D then x i c ^ (b i c ^ (d - e)) else x i c ^ (b i c ^ (D - e) / (1 - b i c))) := by
  obtain ⟨hlen, hpos⟩ := hl.length
  obtain ⟨last, e1, e2⟩ := hl.developments
  have hD := h.lenD
  have f3 := hl.wf.2.2.2
  have hs := ages_increasing h
  have hjl := hj.1
  have cm := filter_ge hs (k := e) (by omega)
  have ck := filter_le hs (k := j) (by omega)
  have cr := filter_ge hs (k := j) (by omega)
  have hrun : bondy b t f earliest attach p = .ok { f with
        ddims := f.ddims ++ (List.range ((avePeriod p t.dgrain).1 + 1)).map fun j : Nat =>
          ((j + 1) * (avePeriod p t.dgrain).2 + last : Int)
        values := { f.values with
          d3 := j + 1 + (D - e + 1 - (D - e + 1 - (D - j)))
          get := fun i c o d =>
            if d < j + 1 then (if d < f.values.d3 then f.values.get i c o d else 1)
            else bondyFitted (f.values.get i c 0 e).amt (b i c) (D - e) (D - e + 1 - (D - j) + (d - (j + 1))) } } := by
    unfold bondy
    rw [if_neg (by rw [h.isVal]; simp; omega), checkAges_eq h he hj hej hn]
    simp only [bind, Except.bind]
    unfold extend
    rw [e1]
    simp only
    rw [earliestIdx_eq h he]
    simp only
    rw [if_neg]
    · rw [picked_age h hj, cm, ck, cr, hD, if_neg (by omega)]
    · rintro ⟨i, hi, c, hc, hne⟩
      exact hne ⟨_, hx i hi c hc⟩
  refine ⟨_, last, e1, hrun, ?_, ?_, ?_⟩
  · rw [avePeriod_eq]
    simp only
    congr 1
    · congr 1
      apply List.map_congr_left
      intro k _
      ring
    · congr 1
      omega
  · intro i c o d hd
    show (if d < j + 1 then (if d < f.values.d3 then f.values.get i c o d else 1) else _) = _
    rw [if_pos (by omega), if_pos (by omega)]
  · intro i hi c hc o d hd
    show (if d < j + 1 then (if d < f.values.d3 then f.values.get i c o d else 1) else _) = _
    obtain ⟨x1, x2⟩ := hx i hi c hc
    rw [if_neg (by omega), x2, Num.amt_fin, bondyFitted_eq x1 (hb i c) (by omega)]
    congr 1
    rw [show D - e + 1 - (D - j) + (d - (j + 1)) = d - e by omega]
    by_cases hdD : d < D
    · rw [if_pos (by omega), if_pos hdD]
    · rw [if_neg (by omega), if_neg hdD]

end Tail
end CL

namespace CL
namespace Tail

section
variable {K : Type} [Field K] [LinearOrder K] [IsStrictOrderedRing K]

/-- A tail attached at the last age or before makes a complete pattern. -/
theorem HasTail.patternFor {t f g : Tri K} (h : LinkPattern t f) {p k : Nat} {tail : Nat → Nat → Nat → K}
    (hg : HasTail f g k t.dgrain p tail) (hk : k < t.ddims.length) : Tri.PatternFor t g := by
  obtain ⟨hl, hp⟩ := h.length
  obtain ⟨last, e1, e2⟩ := h.developments
  obtain ⟨last', e3, e4⟩ := hg.ages
  rw [e1] at e3
  injection e3 with e3
  subst e3
  have g3 : g.values.d3 = g.ddims.length := hg.wf.2.2.2
  have gl : g.ddims.length = f.ddims.length + (addedPeriods p t.dgrain + 1) := by rw [e4]; simp
  have f3 := h.wf.2.2.2
  have gd0 : g.values.d0 = f.values.d0 := by rw [hg.wf.1, h.wf.1, hg.index.1]
  have gd1 : g.values.d1 = f.values.d1 := by rw [hg.wf.2.1, h.wf.2.1, hg.columns]
  have gd2 : 0 < f.values.d2 := by rw [h.wf.2.2.1, h.origin]; omega
  refine ⟨hg.wf, ?_, ?_, ?_, ?_, ?_, ?_, ?_, ?_, ?_, ?_, ?_, ?_⟩
  · rw [hg.flags.2.2.1]; exact h.pattern
  · rw [hg.flags.2.1]; exact h.incremental
  · rw [hg.flags.2.2.2.1]; exact h.multiplicative
  · rw [hg.flags.1]; exact h.ages
  · rw [hg.grains.1]; exact h.ograin
  · rw [hg.grains.2]; exact h.dgrain
  · rw [hg.index.2]; exact h.keyLabels
  · rw [hg.index.1]; exact h.index
  · rw [hg.columns]; exact h.columns
  · rw [hg.origins]; exact h.origin
  · rw [e4, List.range_succ_eq_map, List.map_cons]
    have e5 : ((((0 : Nat) : Int) + 1) * (t.dgrain.months : Int)) = (t.dgrain.months : Int) := by simp
    rw [e5]
    generalize (List.map _ (List.map Nat.succ _)) = rest
    rw [show f.ddims ++ (last + (t.dgrain.months : Int)) :: rest =
      (f.ddims ++ [last + (t.dgrain.months : Int)]) ++ rest by simp, ← e2, List.take_left]
  · intro i hi c hc j hj
    by_cases hjk : j < k
    · rw [hg.before i c 0 j hjk]
      exact h.factors i (by omega) c (by omega) j (by omega)
    · obtain ⟨x, h1, -⟩ := hg.tail i (by omega) c (by omega) 0 gd2
      exact ⟨x j, h1 j (by omega) hj⟩

end

variable {t f : Tri ℝ} {a : Int} {n D q : Nat}

/-- The tail is attached at the age of `k + 1` periods, the last but one by default. -/
def AttachedAge (t : Tri ℝ) (age : Option Int) (k : Nat) : Prop :=
  age = none ∧ k + 2 = t.ddims.length ∨ age = some ((k + 1) * t.dgrain.months : Nat)

/-- The middle of the period ending at age `k + 1`. -/
noncomputable def midAge (t : Tri ℝ) (k : Nat) : ℝ := (k + 1) * t.dgrain.months - t.dgrain.months / 2

theorem midAge_pos (t : Tri ℝ) (k : Nat) : 0 < midAge t k := by
  have h1 := Clark.months_pos' t.dgrain
  unfold midAge
  have h2 : (0 : ℝ) ≤ k := Nat.cast_nonneg k
  nlinarith [mul_nonneg h2 h1.le]

theorem attachAge_eq (h : t.Grid a n D q) {age : Option Int} {k : Nat} (hk : AttachedAge t age k) :
    attachAge t age = ((k + 1) * t.dgrain.months : Nat) := by
  unfold attachAge
  rcases hk with ⟨rfl, h2⟩ | rfl
  · show t.ddims.getD (t.ddims.length - 2) 0 = _
    rw [h.lenD] at h2 ⊢
    rw [h.getDv (by omega), show D - 2 + 1 = k + 1 by omega]
  · show (if _ = 0 then _ else _) = _
    rw [if_neg]
    have hm := Tri.months_pos t.dgrain
    have : 0 < (k + 1) * t.dgrain.months := Nat.mul_pos (by omega) hm
    omega

/-- The ages after `TailBase.fit`. -/
theorem extended_ages (h : t.Grid a n D q) (hl : LinkPattern t f) {last : Int} (hlast : f.ddims.getLast? = some last)
    (p : Nat) :
    (f.ddims ++ (List.range (addedPeriods p t.dgrain + 1)).map fun j : Nat => last + (j + 1) * (t.dgrain.months : Int)) =
      (List.range (D + addedPeriods p t.dgrain)).map fun d : Nat => (((d + 1) * t.dgrain.months : Nat) : Int) := by
  obtain ⟨last', e1, e2⟩ := hl.developments
  rw [hlast] at e1
  injection e1 with e1
  subst e1
  obtain ⟨hlen, hpos⟩ := hl.length
  rw [h.lenD] at hlen
  have hf : f.ddims = (List.range (D - 1)).map fun d : Nat => (((d + 1) * t.dgrain.months : Nat) : Int) := by
    have h1 := h.ddims
    rw [e2, show D = D - 1 + 1 by omega, List.range_succ, List.map_append] at h1
    exact (List.append_inj' h1 rfl).1
  have hla : last = (((D - 1) * t.dgrain.months : Nat) : Int) := by
    rw [hf, show D - 1 = D - 2 + 1 by omega, List.range_succ, List.map_append, List.map_singleton, List.getLast?_append] at hlast
    simp at hlast
    rw [← hlast, show D - 1 = D - 2 + 1 by omega]
    push_cast
    rfl
  have hsplit : List.range (D + addedPeriods p t.dgrain) =
      List.range (D - 1) ++ (List.range (addedPeriods p t.dgrain + 1)).map (D - 1 + ·) := by
    rw [← List.range_add]
    congr 1
    omega
  rw [hsplit, List.map_append, ← hf, List.map_map]
  congr 1
  apply List.map_congr_left
  intro j _
  simp only [Function.comp]
  rw [hla]
  push_cast
  ring

theorem extended_increasing (g : Grain) (N : Nat) :
    ((List.range N).map fun d : Nat => (((d + 1) * g.months : Nat) : Int)).Pairwise (· < ·) := by
  rw [List.pairwise_map]
  refine List.Pairwise.imp ?_ List.pairwise_lt_range
  intro x y hxy
  have := Tri.months_pos g
  have h2 : (x + 1) * g.months < (y + 1) * g.months := Nat.mul_lt_mul_of_pos_right (by omega) this
  exact_mod_cast h2

theorem getD_extended (g : Grain) {N k : Nat} (hk : k < N) :
    ((List.range N).map fun d : Nat => (((d + 1) * g.months : Nat) : Int)).getD k 0 = ((k + 1) * g.months : Nat) := by
  rw [List.getD_eq_getElem?_getD]
  simp [hk]

theorem check_ok {growth : String} (hg : growth = "loglogistic" ∨ growth = "weibull") {l : List ℝ} (h : ∀ x ∈ l, 0 ≤ x) :
    Clark.check growth l = .ok () := by
  unfold Clark.check
  rw [if_neg, if_neg]
  · rintro ⟨x, hx, h1⟩
    exact absurd (h x hx) (not_le.2 h1)
  · rintro ⟨h1, h2⟩
    rcases hg with h3 | h3
    · exact h1 h3
    · exact h2 h3

/-- What is left of the curve after the truncation age. -/
noncomputable def truncated (growth : String) (theta omega : ℝ) : Option ℝ → ℝ
  | none => 1
  | some x => if x = 0 then 1 else Clark.value growth theta omega x

/-- Values and labels after `TailClark`. -/
theorem clark_eq (h : t.Grid a n D q) (hl : LinkPattern t f) {attach : Option Int} {k : Nat}
    (hk : AttachedAge t attach k) {p : Nat} (hkp : k < D + addedPeriods p t.dgrain) {growth : String}
    (hg : growth = "loglogistic" ∨ growth = "weibull") {theta omega : Nat → Nat → ℝ} (ht : ∀ i c, 0 < theta i c)
    (h0 : f.values.d0 = t.values.d0) (h1 : f.values.d1 = t.values.d1) {trunc : Option ℝ}
    (hx : ∀ x, trunc = some x → 0 ≤ x) :
    ∃ g last, f.ddims.getLast? = some last ∧ clark growth theta omega t f attach trunc p = .ok g ∧
      g = { f with
        ddims := f.ddims ++ (List.range (addedPeriods p t.dgrain + 1)).map fun k : Nat =>
          last + (k + 1) * (t.dgrain.months : Int)
        values := { f.values with
          d3 := D + addedPeriods p t.dgrain
          get := g.values.get } } ∧
      (∀ i c o d, d < k → g.values.get i c o d = if d + 1 < D then f.values.get i c o d else 1) ∧
      ∀ i c o d, k ≤ d → d < D + addedPeriods p t.dgrain → g.values.get i c o d =
        .fin (if d + 1 < D + addedPeriods p t.dgrain then
          Clark.value growth (theta i c) (omega i c) (midAge t (d + 1)) / Clark.value growth (theta i c) (omega i c) (midAge t d)
          else truncated growth (theta i c) (omega i c) trunc / Clark.value growth (theta i c) (omega i c) (midAge t d)) := by
  obtain ⟨hlen, hpos⟩ := hl.length
  rw [h.lenD] at hlen
  obtain ⟨last, e1, e2⟩ := hl.developments
  have f3 := hl.wf.2.2.2
  have hext := extended_ages h hl e1 p
  have hinc := extended_increasing t.dgrain (D + addedPeriods p t.dgrain)
  set N := D + addedPeriods p t.dgrain with hN
  set E := (List.range N).map fun d : Nat => (((d + 1) * t.dgrain.months : Nat) : Int) with hE
  have hEl : E.length = N := by rw [hE]; simp
  have ck := filter_lt hinc (k := k) (by omega)
  have cr := filter_ge hinc (k := k) (by omega)
  rw [getD_extended t.dgrain hkp] at ck cr
  have hage : ∀ d < N, (E.map fun a : Int => (a : ℝ) - Clark.offset t.dgrain).getD d 0 = midAge t d := by
    intro d hd
    rw [hE, List.map_map, List.getD_eq_getElem?_getD]
    simp [hd, midAge, Clark.offset_eq]
  have hu : ∀ i c, ∀ d < N, (1 / Clark.curve growth (theta i c) (omega i c)
      ((E.map fun a : Int => (a : ℝ) - Clark.offset t.dgrain).getD d 0)).numToNan =
      .fin (1 / Clark.value growth (theta i c) (omega i c) (midAge t d)) := by
    intro i c d hd
    have hp := midAge_pos t d
    have hv := (Clark.value_bounds (growth := growth) (omega := omega i c) (ht i c) hp).1
    rw [hage d hd, Clark.curve_eq hg (ht i c) hp, Num.one_def, Num.fin_div_fin_of_ne _ hv.ne',
      Num.numToNan_fin_of_ne (by positivity)]
  have hfit : ∀ i c, ∀ d < N, clarkFitted (fun k => (1 / Clark.curve growth (theta i c) (omega i c)
      ((E.map fun a : Int => (a : ℝ) - Clark.offset t.dgrain).getD k 0)).numToNan) N d =
      .fin (if d + 1 < N then Clark.value growth (theta i c) (omega i c) (midAge t (d + 1)) /
        Clark.value growth (theta i c) (omega i c) (midAge t d) else 1 / Clark.value growth (theta i c) (omega i c) (midAge t d)) := by
    intro i c d hd
    unfold clarkFitted
    have hv := (Clark.value_bounds (growth := growth) (omega := omega i c) (ht i c) (midAge_pos t d)).1
    split_ifs with h5
    · have hv' := (Clark.value_bounds (growth := growth) (omega := omega i c) (ht i c) (midAge_pos t (d + 1))).1
      simp only
      rw [hu i c d hd, hu i c (d + 1) h5, Num.fin_div_fin_of_ne _ (by positivity)]
      congr 1
      field_simp
    · exact hu i c d hd
  have hchk : Clark.check growth (E.map fun a : Int => (a : ℝ) - Clark.offset t.dgrain) = .ok () := by
    apply check_ok hg
    intro x hx
    obtain ⟨d, hd, rfl⟩ := List.mem_iff_getElem.1 hx
    rw [List.length_map, hEl] at hd
    have := hage d hd
    rw [List.getD_eq_getElem _ _ (by rw [List.length_map, hEl]; exact hd)] at this
    rw [this]
    exact (midAge_pos t d).le
  have hchk' : ∀ x, trunc = some x → Clark.check growth [x] = .ok () := by
    intro x hx'
    apply check_ok hg
    intro y hy
    rw [List.mem_singleton.1 hy]
    exact hx x hx'
  have hfe : f.ddims ++ (List.range ((avePeriod p t.dgrain).1 + 1)).map (fun j : Nat =>
      ((j + 1) * (avePeriod p t.dgrain).2 + last : Int)) = E := by
    rw [avePeriod_eq, ← hext]
    congr 1
    apply List.map_congr_left
    intro j _
    ring
  have hrun : ∃ g, clark growth theta omega t f attach trunc p = .ok g ∧
      g = { f with
        ddims := E
        values := { f.values with
          d3 := k + (N - (N - (N - k)))
          get := g.values.get } } ∧
      ∀ i c o d, g.values.get i c o d =
        (if d < k then (if d < f.values.d3 then f.values.get i c o d else 1)
          else clarkFitted (fun k => (1 / Clark.curve growth (theta i c) (omega i c)
            ((E.map fun a : Int => (a : ℝ) - Clark.offset t.dgrain).getD k 0)).numToNan) N (N - (N - k) + (d - k))) *
          (if d + 1 < k + (N - (N - (N - k))) then .fin 1 else .fin (truncated growth (theta i c) (omega i c) trunc)) := by
    unfold clark
    rw [if_neg (by rw [h.isVal, h.lenD]; simp; omega)]
    simp only [bind, Except.bind]
    unfold extend
    rw [e1]
    simp only
    rw [hfe, hchk]
    simp only
    rw [attachAge_eq h hk, ck, cr, hEl, if_neg (c := N - k = 0) (by omega), if_neg (by simp [h0, h1])]
    have one : ∀ y : Num ℝ, y * Num.fin 1 = y := fun y => by rw [← Num.one_def]; exact mul_one y
    cases trunc with
    | none =>
      refine ⟨_, rfl, rfl, fun i c o d => ?_⟩
      simp only [truncated, ite_self]
      rw [one]
    | some x =>
      simp only
      by_cases hx0 : x = 0
      · rw [if_pos hx0]
        refine ⟨_, rfl, rfl, fun i c o d => ?_⟩
        simp only [truncated, if_pos hx0, ite_self]
        rw [one]
      · rw [if_neg hx0, hchk' x rfl]
        refine ⟨_, rfl, rfl, fun i c o d => ?_⟩
        simp only [truncated, if_neg hx0]
        have hxp : 0 < x := lt_of_le_of_ne (hx x rfl) (Ne.symm hx0)
        rw [Clark.curve_eq hg (ht i c) hxp]
        split_ifs <;> first | rfl | rw [one]
  obtain ⟨g, r1, r2, r3⟩ := hrun
  refine ⟨g, last, e1, r1, ?_, ?_, ?_⟩
  · rw [hext]
    rw [show k + (N - (N - (N - k))) = N by omega] at r2
    exact r2
  · intro i c o d hd
    rw [r3, if_pos hd, if_pos (c := d + 1 < k + (N - (N - (N - k)))) (by omega), ← Num.one_def, mul_one]
    by_cases h5 : d + 1 < D
    · rw [if_pos h5, if_pos (by omega)]
    · rw [if_neg h5, if_neg (by omega)]
  · intro i c o d hd1 hd2
    rw [r3, if_neg (by omega), show N - (N - k) + (d - k) = d by omega, hfit i c d hd2,
      show k + (N - (N - (N - k))) = N by omega]
    split_ifs with h5
    · rw [Num.fin_mul_fin, mul_one]
    · rw [Num.fin_mul_fin]
      congr 1
      ring

end Tail
end CL
