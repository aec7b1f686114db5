import Verif.Lemmas.ProcessVariance
import Verif.Props.C58
import Verif.Props.C61

set_option linter.unusedSectionVars false

/-! # C74: process variance of bootstrap samples -/

namespace CL
namespace Boot
open Tri
variable {K : Type} [Field K] [LinearOrder K] [IsStrictOrderedRing K]
variable {t f u : Tri K} {a : Int} {n D q F : Nat} {U : Nat → Nat → Nat → K} {z : Tri K}
variable {φ : K} {seed : Seed} {s : Option Int} {gen : Option Int → Nat → Nat → Nat → Nat → K → K}

/-- The triangle, its pattern and its ultimates, with the full triangle `z`. -/
structure Ready (t f u z : Tri K) (a : Int) (n D q F : Nat) (U : Nat → Nat → Nat → K) : Prop where
  standard : Standard t a n D q
  cumulative : t.isCum = some true
  pattern : GridPattern t f a n D q F
  rows : 2 ≤ linkRows n D q
  ultimates : UltAmounts t u U
  full : fullTriangle t f u true = .ok z

theorem Ready.facts (h : Ready t f u z a n D q F U) : Completed t z n D q F ∧ z.isCum = some true := by
  obtain ⟨z', hz', c⟩ := completed h.standard h.cumulative h.pattern h.rows h.ultimates
  obtain ⟨z'', hz'', -, -, -, -, -, -, -, hc, -⟩ := full_spec h.standard h.cumulative h.pattern h.rows h.ultimates
  rw [h.full] at hz' hz''
  injection hz' with e1
  injection hz'' with e2
  subst e1
  subst e2
  exact ⟨c, hc⟩

theorem include_run (h : Ready t f u z a n D q F U) (hφ : 0 < φ) (hs : seed.process = .ok s) :
    ∃ r, includeVariance t f u t [φ] seed gen = .ok r ∧
      (∀ i < t.kdims.length, ∀ c < t.vdims.length, ∀ o < n, ∀ d < F + 1,
        r.noisy.values.get i c o d = (Num.fin (noisy t z D q [φ] (gen s) i c o d)).numToNan) ∧
      (∀ i c o, r.ultimate.values.get i c o 0 = r.noisy.values.get i c o F) ∧
      r.ultimate.odims = u.odims ∧ r.ultimate.ddims = u.ddims ∧ r.ultimate.values.d3 = 1 ∧
      r.noisy.ddims = z.ddims ∧
      ∀ i < t.kdims.length, ∀ c < t.vdims.length, ∀ o < n, ∀ d < F + 1,
        r.variance.values.get i c o d =
          (Num.fin (noisy t z D q [φ] (gen s) i c o d - (z.values.get i c o d).amt)).numToNan := by
  obtain ⟨hz, zc⟩ := h.facts
  obtain ⟨m, hm, wm, max', mvd, mp, mc, mcell⟩ := process_run h.standard h.cumulative h.pattern h.rows hz zc
    (scales := [φ]) (Or.inl rfl) (by simpa using hφ) (gen s)
  have d3 : m.values.d3 = F + 1 := by rw [wm.2.2.2, max'.2.2.2.2.1, hz.ages, fullAges_length]
  obtain ⟨p, hp, -, -, -, pd, pcell⟩ := Arr.sliceD_of (a := m.values) (start := some (-1)) (stop := none)
    (x := F) (y := F + 1) (by
      rw [d3]
      unfold PySlice.indices
      simp)
  obtain ⟨v, hv, vcell⟩ : ∃ v, m.sub z = .ok v ∧ ∀ i c o d, v.values.get i c o d =
      (((m.values.get i c o d).nanToNum - (z.values.get i c o d).nanToNum) *
          (nanTri { m with vd := max m.vd z.vd } o d).nanToNum).numToNan :=
    ⟨_, sub_same max' wm hz.wf, fun i c o d => rfl⟩
  refine ⟨⟨{ u with values := p }, m, v⟩, ?_, mcell, fun i c o => pcell i c o 0 (by omega), rfl, rfl, ?_,
    max'.2.2.2.2.1, ?_⟩
  · unfold includeVariance
    simp only [h.full, hs, hm, hp, hv, bind, Except.bind]
  · show p.d3 = 1
    rw [pd]; omega
  · intro i hi c hc o ho d hd
    show v.values.get i c o d = _
    rw [vcell]
    have hn : nanTri { m with vd := max m.vd z.vd } o d = 1 := by
      rcases nanTri_eq { m with vd := max m.vd z.vd } o d with e | ⟨-, e⟩
      · exact e
      · exfalso
        have h1 : ({ m with vd := max m.vd z.vd } : Tri K).valuation o d = z.valuation o d := by
          unfold Tri.valuation
          show valuationOf m.isVal m.odims m.ddims (max m.vd z.vd) o d = _
          rw [max'.2.2.2.1, max'.2.2.2.2.1, max'.2.2.2.2.2.1, mvd, hz.date, max_self]
        rw [h1] at e
        have e : z.valuation o d > max m.vd z.vd := e
        rw [mvd, hz.date, max_self] at e
        have := past h.standard.toGrid h.pattern hz ho hd
        omega
    rw [hn, mcell i hi c hc o ho d hd, filled_numToNan, hz.filled hi hc ho hd, Num.fin_sub_fin]
    show (Num.fin _ * Num.fin 1 : Num K).numToNan = _
    rw [Num.fin_mul_fin, mul_one]

/-- **C74**: process variance keeps every recorded amount, moves every later one by draws that have the sign and, per unit of
scale, the expected size of the increments of the full triangle, replaces the ultimate by the last column and is what was
added to the full triangle. -/
theorem C74_process_partial (h : Ready t f u z a n D q F U) (hφ : 0 < φ) (hs : seed.process = .ok s) :
    ∃ r, includeVariance t f u t [φ] seed gen = .ok r ∧ r.ultimate.odims = u.odims ∧
      (∀ i < t.kdims.length, ∀ c < t.vdims.length, ∀ o < n,
        r.ultimate.values.get i c o 0 = r.noisy.values.get i c o F) ∧
      ∀ i < t.kdims.length, ∀ c < t.vdims.length, ∀ o < n,
        (∀ d < D, t.valuation o d ≤ t.vd → r.noisy.values.get i c o d = (t.values.get i c o d).numToNan ∧
          r.variance.values.get i c o d = .nan) ∧
        ∀ d < F + 1, D < q * o + d + 1 →
          r.noisy.values.get i c o d = (Num.fin (t.latest D q i c o +
            ∑ j ∈ Finset.Ico (D - q * o) (d + 1), shaken φ (gen s i c o j) (gain z i c o j))).numToNan ∧
          (r.variance.values.get i c o d).amt = (r.noisy.values.get i c o d).amt - (z.values.get i c o d).amt := by
  obtain ⟨r, hr, rc, ru, ro, -, -, -, rv⟩ := include_run (gen := gen) h hφ hs
  have hg := h.standard
  have hcov := h.pattern.covers
  obtain ⟨hz, -⟩ := h.facts
  refine ⟨r, hr, ro, fun i _ c _ o _ => ru i c o, ?_⟩
  intro i hi c hc o ho
  refine ⟨?_, ?_⟩
  · intro d hd hv
    have hk : q * o + d + 1 ≤ D := by
      have := (hg.toGrid.le_iff ho hd).1 hv
      omega
    have e : noisy t z D q [φ] (gen s) i c o d = (t.values.get i c o d).amt := by
      unfold noisy
      rw [if_pos hk]
    have hfin := hg.finite i (by rw [hg.wf.1]; exact hi) c (by rw [hg.wf.2.1]; exact hc) o
      (by rw [hg.wf.2.2.1, hg.lenO]; exact ho) d (by rw [hg.wf.2.2.2, hg.lenD]; exact hd)
    refine ⟨?_, ?_⟩
    · rw [rc i hi c hc o ho d (by omega), e, ← numToNan_amt hfin]
    · rw [rv i hi c hc o ho d (by omega), e, hz.known i hi c hc o ho d hd hk, Num.amt_numToNan, sub_self,
        Num.numToNan_zero']
  · intro d hd hk
    refine ⟨?_, ?_⟩
    · rw [rc i hi c hc o ho d hd]
      unfold noisy
      rw [if_neg (by omega)]
      rfl
    · rw [rv i hi c hc o ho d hd, rc i hi c hc o ho d hd, Num.amt_numToNan, Num.amt_numToNan]
      rfl

/-- **C74, sign**: draws that are not negative move no increment past zero. -/
theorem C74_sign_partial (h : Ready t f u z a n D q F U) (hφ : 0 < φ) (hs : seed.process = .ok s)
    (hpos : ∀ i c o d x, 0 ≤ gen s i c o d x) :
    ∃ r, includeVariance t f u t [φ] seed gen = .ok r ∧
      ∀ i < t.kdims.length, ∀ c < t.vdims.length, ∀ o < n, ∀ d < F + 1, D < q * o + d + 1 →
        0 ≤ gain z i c o d * gain r.noisy i c o d := by
  obtain ⟨r, hr, rc, -⟩ := include_run (gen := gen) h hφ hs
  refine ⟨r, hr, ?_⟩
  intro i hi c hc o ho d hd hk
  have hrow := h.standard.row_le ho
  rw [Nat.mul_comm] at hrow
  have e : gain r.noisy i c o d = shaken φ (gen s i c o d) (gain z i c o d) := by
    have e1 : ∀ x y, r.noisy.values.get i c o x = (Num.fin y).numToNan → (r.noisy.values.get i c o x).amt = y := by
      intro x y hx
      rw [hx, Num.amt_numToNan]
      rfl
    conv_lhs => unfold gain
    rw [e1 d _ (rc i hi c hc o ho d hd), e1 (d - 1) _ (rc i hi c hc o ho (d - 1) (by omega))]
    unfold noisy
    rw [if_neg (by omega), Finset.sum_Ico_succ_top (by omega)]
    by_cases hk' : q * o + (d - 1) + 1 ≤ D
    · rw [if_pos hk', show d = D - q * o by omega, Finset.Ico_self, Finset.sum_empty]
      unfold Tri.latest
      rw [show D - q * o - 1 = D - 1 - q * o by omega]
      show _ + (0 + shaken φ _ _) - _ = _
      ring
    · rw [if_neg hk', show d - 1 + 1 = d by omega]
      show _ + (_ + shaken φ _ _) - (_ + _) = _
      ring
  rw [e]
  unfold shaken
  have hg : 0 ≤ φ * gen s i c o d (|gain z i c o d| / φ) := mul_nonneg hφ.le (hpos _ _ _ _ _)
  rw [← mul_assoc, self_mul_sign]
  exact mul_nonneg (abs_nonneg _) hg

/-- **C74, mean**: draws equal to their mean, the shape, give the full triangle and its ultimates back. -/
theorem C74_mean_partial (h : Ready t f u z a n D q F U) (hφ : 0 < φ) (hs : seed.process = .ok s)
    (hmean : ∀ i c o d x, gen s i c o d x = x) :
    ∃ r, includeVariance t f u t [φ] seed gen = .ok r ∧
      ∀ i < t.kdims.length, ∀ c < t.vdims.length, ∀ o < n, ∀ d < F + 1,
        r.noisy.values.get i c o d = z.values.get i c o d ∧ r.variance.values.get i c o d = .nan := by
  obtain ⟨r, hr, rc, -, -, -, -, -, rv⟩ := include_run (gen := gen) h hφ hs
  refine ⟨r, hr, ?_⟩
  obtain ⟨hz, -⟩ := h.facts
  intro i hi c hc o ho d hd
  have hrow := h.standard.row_le ho
  rw [Nat.mul_comm] at hrow
  have e : noisy t z D q [φ] (gen s) i c o d = (z.values.get i c o d).amt := by
    unfold noisy
    by_cases hk : q * o + d + 1 ≤ D
    · rw [if_pos hk, hz.known i hi c hc o ho d (by omega) hk, Num.amt_numToNan]
    · rw [if_neg hk]
      have e1 : ∀ j ∈ Finset.Ico (D - q * o) (d + 1),
          shaken (scaleAt [φ] j) (gen s i c o j) (gain z i c o j) = gain z i c o j := by
        intro j _
        show shaken φ _ _ = _
        unfold shaken
        rw [hmean, mul_div_cancel₀ _ hφ.ne', sign_mul_abs]
      rw [Finset.sum_congr rfl e1]
      have e2 : t.latest D q i c o = (z.values.get i c o (D - q * o - 1)).amt := by
        rw [hz.known i hi c hc o ho (D - q * o - 1) (by omega) (by omega), Num.amt_numToNan]
        unfold Tri.latest
        rw [show D - q * o - 1 = D - 1 - q * o by omega]
      have tele : ∀ e, D - q * o ≤ e → ∑ j ∈ Finset.Ico (D - q * o) (e + 1), gain z i c o j =
          (z.values.get i c o e).amt - (z.values.get i c o (D - q * o - 1)).amt := by
        intro e he
        induction e, he using Nat.le_induction with
        | base => rw [Finset.sum_Ico_succ_top le_rfl, Finset.Ico_self, Finset.sum_empty, zero_add]; rfl
        | succ e he ih =>
          rw [Finset.sum_Ico_succ_top (by omega), ih]
          unfold gain
          rw [Nat.add_sub_cancel]
          ring
      rw [tele d (by omega), e2]
      ring
  refine ⟨?_, ?_⟩
  · rw [rc i hi c hc o ho d hd, e, ← hz.cells i hi c hc o ho d hd]
  · rw [rv i hi c hc o ho d hd, e, sub_self, Num.numToNan_zero']

/-- Generators with the same seed draw the same, whatever the state of the machine `e`. -/
def Seeded (gens : Nat → Option Int → Nat → Nat → Nat → Nat → K → K) : Prop :=
  ∀ e e' k, gens e (some k) = gens e' (some k)

/-- **C74, seed**: a seed other than zero makes the result reproducible. -/
theorem C74_seed_partial (gens : Nat → Option Int → Nat → Nat → Nat → Nat → K → K) (hg : Seeded gens) {k : Int}
    (hk : k ≠ 0) (e e' : Nat) (t f u x : Tri K) (scales : List K) :
    includeVariance t f u x scales (.int k) (gens e) = includeVariance t f u x scales (.int k) (gens e') := by
  have hs : (Seed.int k).process = .ok (some (k + 1)) := by
    unfold Seed.process
    simp only [if_neg hk]
  unfold includeVariance
  rw [hs]
  simp only [bind, Except.bind, hg e e' (k + 1)]

/-- **C74 is false of the seed zero**, which is treated as no seed: whenever an increment is expected, there are generators that
obey their seeds and yet give different ultimates. -/
theorem C74_zero_false (h : Ready t f u z a n D q F U) (hφ : 0 < φ) {i c o d : Nat} (hi : i < t.kdims.length)
    (hc : c < t.vdims.length) (ho : o < n) (hd : d < F + 1) (hk : D < q * o + d + 1) (hne : gain z i c o d ≠ 0) :
    ∃ gens, Seeded gens ∧ ∃ r r', includeVariance t f u t [φ] (.int 0) (gens 0) = .ok r ∧
      includeVariance t f u t [φ] (.int 0) (gens 1) = .ok r' ∧
      r.ultimate.values.get i c o 0 ≠ r'.ultimate.values.get i c o 0 := by
  refine ⟨fun e s _ _ _ j _ => if s = none ∧ j = d then (e : K) else 0, ?_, ?_⟩
  · intro e e' k
    funext _ _ _ j _
    simp
  have hcov := h.pattern.covers
  have hrow := h.standard.row_le ho
  rw [Nat.mul_comm] at hrow
  obtain ⟨r, hr, rc, ru, -⟩ := include_run (seed := .int 0) (s := none)
    (gen := fun s _ _ _ j _ => if s = none ∧ j = d then ((0 : Nat) : K) else 0) h hφ rfl
  obtain ⟨r', hr', rc', ru', -⟩ := include_run (seed := .int 0) (s := none)
    (gen := fun s _ _ _ j _ => if s = none ∧ j = d then ((1 : Nat) : K) else 0) h hφ rfl
  refine ⟨r, r', hr, hr', ?_⟩
  rw [ru, ru', rc i hi c hc o ho F (by omega), rc' i hi c hc o ho F (by omega), Ne, numToNan_inj]
  unfold noisy
  rw [if_neg (by omega), if_neg (by omega), add_right_inj]
  rw [Finset.sum_eq_zero, Finset.sum_eq_single d]
  · show (0 : K) ≠ shaken φ (fun _ => if none = none ∧ d = d then ((1 : Nat) : K) else 0) (gain z i c o d)
    unfold shaken
    rw [if_pos ⟨rfl, rfl⟩, Nat.cast_one, mul_one]
    refine (mul_ne_zero ?_ hφ.ne').symm
    rcases lt_or_gt_of_ne hne with h3 | h3
    · rw [sign_neg h3]; simp
    · rw [sign_pos h3]; simp
  · intro j _ hj
    simp [shaken, hj]
  · intro hh
    exfalso
    exact hh (Finset.mem_Ico.2 ⟨by omega, by omega⟩)
  · intro j _
    simp [shaken]

/-- **C74 is false of several columns**: `scale_` is then an array of one number per column, which numpy aligns with the ages. -/
theorem C74_columns_false (h : Ready t f u z a n D q F U) {scales : List K} (hl : scales.length = t.vdims.length)
    (h1 : 2 ≤ t.vdims.length) (hF : t.vdims.length ≠ F + 1) (hs : seed.process = .ok s) :
    includeVariance t f u t scales seed gen = .error .valueError := by
  obtain ⟨hz, zc⟩ := h.facts
  have hcov := h.pattern.covers
  have D2 := h.standard.two_ages
  obtain ⟨m, hm, -⟩ := process_run h.standard h.cumulative h.pattern h.rows hz zc
    (scales := List.replicate (F + 1) 1) (Or.inr (by simp)) (by simp) (gen s)
  unfold includeVariance
  simp only [h.full, hs, bind, Except.bind]
  have : processVariance t z scales (gen s) = .error .valueError := by
    unfold processVariance at hm ⊢
    cases e1 : z.cumToIncr with
    | error e => simp [e1, bind, Except.bind] at hm
    | ok y =>
      cases e2 : t.cumToIncr with
      | error e => simp [e1, e2, bind, Except.bind] at hm
      | ok b =>
        cases e3 : y.sub b with
        | error e => simp [e1, e2, e3, bind, Except.bind] at hm
        | ok l =>
          simp only [e1, e2, e3, bind, Except.bind] at hm ⊢
          have hd : l.values.d3 = F + 1 := by
            by_contra hne
            rw [if_pos ⟨by rw [List.length_replicate]; omega, by rw [List.length_replicate]; omega⟩] at hm
            cases hm
          rw [if_pos ⟨by omega, by omega⟩]
  rw [this]

/-- **C74 is false of as many columns as ages**: the number of the column in `scale_` is then taken for the age, so that all columns
have the same scale at an age. -/
theorem C74_ages_false (h : Ready t f u z a n D q F U) {scales : List K} (hl : scales.length = t.vdims.length)
    (hF : t.vdims.length = F + 1) (hp : ∀ s ∈ scales, 0 < s) (draw : Nat → Nat → Nat → Nat → K → K) :
    ∃ r, processVariance t z scales draw = .ok r ∧
      ∀ i < t.kdims.length, ∀ c < t.vdims.length, ∀ o < n, ∀ d < F + 1, D < q * o + d + 1 →
        r.values.get i c o d = (Num.fin (t.latest D q i c o +
          ∑ j ∈ Finset.Ico (D - q * o) (d + 1), shaken (scales.getD j 0) (draw i c o j) (gain z i c o j))).numToNan := by
  obtain ⟨hz, zc⟩ := h.facts
  have hcov := h.pattern.covers
  have D2 := h.standard.two_ages
  obtain ⟨m, hm, -, -, -, -, -, hcell⟩ := process_run h.standard h.cumulative h.pattern h.rows hz zc
    (scales := scales) (Or.inr (by omega)) hp draw
  refine ⟨m, hm, ?_⟩
  intro i hi c hc o ho d hd hk
  rw [hcell i hi c hc o ho d hd]
  unfold noisy
  rw [if_neg (by omega)]
  have hne : scales.length ≠ 1 := by omega
  simp only [scaleAt, if_neg hne]

/-- A generator in place of a seed cannot be used (`TypeError`). -/
theorem C74_generator_false (h : Ready t f u z a n D q F U) (scales : List K) :
    includeVariance t f u t scales .generator gen = .error .typeError := by
  unfold includeVariance
  simp only [h.full, Seed.process, bind, Except.bind]

/-- **C74, chain ladder**: the method has what the process variance needs. -/
theorem C74_chainladder_partial (h : Standard t a n D q) (hc : t.isCum = some true)
    (hf : GridPattern t f a n D q F) (h2 : 2 ≤ linkRows n D q) :
    ∃ u z, t.chainladder f none = .ok u ∧
      Ready t f u z a n D q F fun i c o => t.latest D q i c o * f.toUlt i c (D - 1 - q * o) := by
  obtain ⟨l, hl, hd⟩ := h.latest
  obtain ⟨u, rows, hu, hr, hul⟩ := C33_ultimate_partial h.cumTri hf.toPatternFor hl
  have hrr : rows = List.range n := by
    refine List.Pairwise.eq_of_mem_iff hr.rows_inc hd.rows_inc ?_
    intro o
    rw [hr.mem_rows, hd.mem_rows]
  subst hrr
  obtain ⟨z, hz, -⟩ := C34_partial h hc hf h2 (hul.ultAmounts h)
  exact ⟨u, z, hu, h, hc, hf, h2, hul.ultAmounts h, hz⟩

/-- **C74, samples**: what `BootstrapODPSample` returns is a triangle on the grid of the original, one index per sample, to which
the theorems above apply once a pattern is fitted to it. -/
theorem C74_samples_partial {t f : Tri ℝ} {p : Dev.Params ℝ} {root : ℝ → ℝ} {hat : (Nat → Nat → Num ℝ) → Option (Nat → Nat → Num ℝ)}
    {sims : Nat} {draw : Nat → Nat → Nat → Nat} (h : Sampled t a n D q) (hf : Dev.fit t p = .ok f)
    (hl : Tail.LinkPattern t f) {r : Fitted} (hr : fit root p hat sims draw t = .ok r) (hs : 1 ≤ sims) :
    Standard r.resampled a n D q ∧ r.resampled.isCum = some true := by
  obtain ⟨wf, hk, hv, ho, hd, hvd, hc, -, -, hcell⟩ := C61_samples_partial h hf hl hr
  obtain ⟨-, -, -, h4⟩ := fit_ok h hf hl hr
  have hdg : r.resampled.dgrain = t.dgrain := by rw [h4]; rfl
  have d0 : r.resampled.values.d0 = sims := by rw [wf.1, hk]
  have d1 : r.resampled.values.d1 = 1 := by rw [wf.2.1, hv, h.oneColumn]
  have d2 : r.resampled.values.d2 = n := by rw [wf.2.2.1, ho, h.lenO]
  have d3 : r.resampled.values.d3 = D := by rw [wf.2.2.2, hd, h.lenD]
  refine ⟨⟨⟨wf, ?_, by rw [h4]; exact h.isVal, by omega, by rw [hv]; exact h.columns_pos, h.two_origins, h.period, h.recent,
    by rw [ho, hdg]; exact h.odims, by rw [hd, hdg]; exact h.ddims, by rw [hvd, hdg]; exact h.vd, by rw [hdg]; exact h.short,
    by rw [hvd]; exact h.early, ?_⟩, by rw [hc]; decide, by rw [h4]; exact h.noPattern, by rw [h4]; exact h.multiplicative⟩, hc⟩
  · intro i hi c hc' o ho' d hd'
    obtain rfl : c = 0 := by omega
    obtain ⟨e1, e2⟩ := hcell i (by omega) o (by omega) d (by omega)
    by_cases hk : q * o + d + 1 ≤ D
    · rw [e1 hk]; trivial
    · rw [e2 (by omega)]; trivial
  · intro i hi c hc' o ho' d hd' hlt
    rw [hv, h.oneColumn] at hc'
    obtain rfl : c = 0 := by omega
    exact (hcell i (by omega) o ho' d hd').2 hlt

namespace C74

theorem cell {u z : Tri ℚ} (hu : (Ex.tri3 (some true) Ex.cum3).chainladder C34.pat none = .ok u)
    (hz : fullTriangle (Ex.tri3 (some true) Ex.cum3) C34.pat u true = .ok z) {d : Nat} (hd : d < 4) (h1 : 1 ≤ d) :
    z.values.get 0 0 2 d = (Num.fin (120 * ∏ j ∈ Finset.Ico 0 d, C34.pat.ageFactor 0 0 j)).numToNan := by
  obtain ⟨u', z', h2, h3, h4⟩ := C58_partial C34.standard rfl C34.gridPattern (by decide)
  rw [hu] at h2
  injection h2 with h2
  subst h2
  rw [hz] at h3
  injection h3 with h3
  subst h3
  exact h4 0 (by decide) 0 (by decide) 2 (by decide) d hd (by omega) (by decide +kernel)

/-- With draws of twice their mean and scale 10, the expected increments 60 and 18 of the last origin become 120 and 36. -/
example (k : Int) : ∃ u r, (Ex.tri3 (some true) Ex.cum3).chainladder C34.pat none = .ok u ∧
    includeVariance (Ex.tri3 (some true) Ex.cum3) C34.pat u (Ex.tri3 (some true) Ex.cum3) [10] (.int k)
      (fun _ _ _ _ _ x => 2 * x) = .ok r ∧ r.noisy.values.get 0 0 2 2 = .fin 276 := by
  obtain ⟨u, z, hu, hr⟩ := C74_chainladder_partial C34.standard rfl C34.gridPattern (by decide)
  obtain ⟨r, h1, -, -, h2⟩ := C74_process_partial (φ := 10) (seed := .int k)
    (gen := fun _ _ _ _ _ x => 2 * x) hr (by norm_num) rfl
  refine ⟨u, r, hu, h1, ?_⟩
  rw [((h2 0 (by decide) 0 (by decide) 2 (by decide)).2 2 (by decide) (by decide)).1]
  have e0 : (z.values.get 0 0 2 0).amt = 120 := by
    rw [hr.facts.1.known 0 (by decide) 0 (by decide) 2 (by decide) 0 (by decide) (by decide)]
    decide +kernel
  have e1 : (z.values.get 0 0 2 1).amt = 180 := by
    rw [cell hu hr.full (by decide) (by decide)]
    decide +kernel
  have e2 : (z.values.get 0 0 2 2).amt = 198 := by
    rw [cell hu hr.full (by decide) (by decide)]
    decide +kernel
  have el : (Ex.tri3 (some true) Ex.cum3).latest 3 1 0 0 2 = 120 := by decide +kernel
  have es : Finset.Ico (3 - 1 * 2) (2 + 1) = {1, 2} := by decide
  rw [es, Finset.sum_pair (by decide), el]
  unfold shaken gain
  rw [e0, e1, e2]
  decide +kernel

/-- Zero as a seed. -/
example : ∃ u, (Ex.tri3 (some true) Ex.cum3).chainladder C34.pat none = .ok u ∧
    ∃ gens, Seeded gens ∧ ∃ r r',
      includeVariance (Ex.tri3 (some true) Ex.cum3) C34.pat u (Ex.tri3 (some true) Ex.cum3) [10] (.int 0) (gens 0) = .ok r ∧
      includeVariance (Ex.tri3 (some true) Ex.cum3) C34.pat u (Ex.tri3 (some true) Ex.cum3) [10] (.int 0) (gens 1) = .ok r' ∧
      r.ultimate.values.get 0 0 2 0 ≠ r'.ultimate.values.get 0 0 2 0 := by
  obtain ⟨u, z, hu, hr⟩ := C74_chainladder_partial C34.standard rfl C34.gridPattern (by decide)
  refine ⟨u, hu, C74_zero_false hr (by norm_num) (i := 0) (c := 0) (o := 2) (d := 2) (by decide) (by decide)
    (by decide) (by decide) (by decide) ?_⟩
  unfold gain
  rw [cell hu hr.full (by decide) (by decide), cell hu hr.full (by decide) (by decide)]
  decide +kernel

/-- The same amounts in two columns. -/
def two : Tri ℚ :=
  { Ex.tri3 (some true) Ex.cum3 with
    vdims := ["paid", "incurred"]
    values := ⟨1, 2, 3, 3, fun _ _ o d => Ex.cum3 o d⟩ }

theorem two_standard : Standard two 24240 3 3 1 where
  wf := ⟨rfl, rfl, rfl, rfl⟩
  finite := fun i hi _ _ o ho d hd => (Ex.proper_tri3 (some true)).finite i hi 0 (by decide) o ho d hd
  isVal := rfl
  index_pos := by decide
  columns_pos := by decide
  two_origins := by decide
  period := le_rfl
  recent := by decide
  odims := by decide
  ddims := by decide
  vd := by decide
  short := by decide
  early := by decide
  known := by
    intro i hi c hc o ho d hd h
    interval_cases o <;> interval_cases d <;> first | rfl | omega
  cumulative := by decide
  noPattern := rfl
  multiplicative := rfl

theorem two_pattern : GridPattern two C34.pat 24240 3 3 1 3 := by
  have g := C34.gridPattern
  exact ⟨⟨g.wf, g.pattern, g.incremental, g.multiplicative, rfl, rfl, rfl, rfl, Or.inl rfl, Or.inr rfl, rfl,
    rfl, g.factors⟩, g.grid, g.covers, g.short, g.early, g.date⟩

/-- Two columns with scales 10 and 20. -/
example (k : Int) (gen : Option Int → Nat → Nat → Nat → Nat → ℚ → ℚ) : ∃ u, two.chainladder C34.pat none = .ok u ∧
    includeVariance two C34.pat u two [10, 20] (.int k) gen = .error .valueError := by
  obtain ⟨u, z, hu, hr⟩ := C74_chainladder_partial two_standard rfl two_pattern (by decide)
  exact ⟨u, hu, C74_columns_false hr rfl (by decide) (by decide) rfl⟩

/-- The same amounts in four columns, as many as the full triangle has ages. -/
def four : Tri ℚ :=
  { Ex.tri3 (some true) Ex.cum3 with
    vdims := ["paid", "incurred", "closed", "reported"]
    values := ⟨1, 4, 3, 3, fun _ _ o d => Ex.cum3 o d⟩ }

theorem four_standard : Standard four 24240 3 3 1 where
  wf := ⟨rfl, rfl, rfl, rfl⟩
  finite := fun i hi _ _ o ho d hd => (Ex.proper_tri3 (some true)).finite i hi 0 (by decide) o ho d hd
  isVal := rfl
  index_pos := by decide
  columns_pos := by decide
  two_origins := by decide
  period := le_rfl
  recent := by decide
  odims := by decide
  ddims := by decide
  vd := by decide
  short := by decide
  early := by decide
  known := by
    intro i hi c hc o ho d hd h
    interval_cases o <;> interval_cases d <;> first | rfl | omega
  cumulative := by decide
  noPattern := rfl
  multiplicative := rfl

theorem four_pattern : GridPattern four C34.pat 24240 3 3 1 3 := by
  have g := C34.gridPattern
  exact ⟨⟨g.wf, g.pattern, g.incremental, g.multiplicative, rfl, rfl, rfl, rfl, Or.inl rfl, Or.inr rfl, rfl,
    rfl, g.factors⟩, g.grid, g.covers, g.short, g.early, g.date⟩

/-- Four columns with four scales: every column has the scale 30 at the third age and 40 at the ultimate. -/
example (draw : Nat → Nat → Nat → Nat → ℚ → ℚ) : ∃ u z r, four.chainladder C34.pat none = .ok u ∧
    processVariance four z [10, 20, 30, 40] draw = .ok r ∧ ∀ c < 4,
      r.values.get 0 c 1 3 = (Num.fin (four.latest 3 1 0 c 1 + (shaken 30 (draw 0 c 1 2) (gain z 0 c 1 2) +
        shaken 40 (draw 0 c 1 3) (gain z 0 c 1 3)))).numToNan := by
  obtain ⟨u, z, hu, hr⟩ := C74_chainladder_partial four_standard rfl four_pattern (by decide)
  obtain ⟨r, h1, h2⟩ := C74_ages_false hr (scales := [10, 20, 30, 40]) rfl rfl
    (by intro s hs; simp at hs; rcases hs with rfl | rfl | rfl | rfl <;> norm_num) draw
  refine ⟨u, z, r, hu, h1, fun c hc => ?_⟩
  rw [h2 0 (by decide) c hc 1 (by decide) 3 (by decide) (by decide),
    show Finset.Ico (3 - 1 * 1) (3 + 1) = {2, 3} from by decide, Finset.sum_pair (by decide)]
  rfl

end C74

end Boot
end CL
