import Verif.Lemmas.ValGrid
import Verif.Model.Grain

set_option linter.unusedSectionVars false

namespace CL

/-- Positions satisfying a convex condition are consecutive. -/
theorem filter_convex (P : Nat → Bool) (h : ∀ a b c, a ≤ b → b ≤ c → P a = true → P c = true → P b = true)
    (n : Nat) : ∃ lo k, (List.range n).filter P = (List.range k).map (· + lo) ∧ lo + k ≤ n := by
  induction n with
  | zero => exact ⟨0, 0, rfl, le_refl _⟩
  | succ n ih =>
    obtain ⟨lo, k, e, hk⟩ := ih
    rw [List.range_succ, List.filter_append, e]
    by_cases hP : P n = true
    · rw [List.filter_singleton, hP]
      rcases Nat.eq_zero_or_pos k with rfl | hpos
      · exact ⟨n, 1, by simp, by omega⟩
      · have hlast : lo + (k - 1) ∈ (List.range n).filter P := by
          rw [e]; exact List.mem_map.mpr ⟨k - 1, List.mem_range.mpr (by omega), by omega⟩
        have hlo : lo + k = n := by
          by_contra hne
          have hb := h (lo + (k - 1)) (lo + k) n (by omega) (by omega)
            (List.mem_filter.mp hlast).2 hP
          have : lo + k ∈ (List.range n).filter P :=
            List.mem_filter.mpr ⟨List.mem_range.mpr (by omega), hb⟩
          rw [e] at this
          obtain ⟨x, hx, hx'⟩ := List.mem_map.mp this
          have := List.mem_range.mp hx
          omega
        refine ⟨lo, k + 1, ?_, by omega⟩
        rw [List.range_succ, List.map_append]
        simp [← hlo, Nat.add_comm]
    · refine ⟨lo, k, ?_, by omega⟩
      rw [List.filter_singleton]
      simp [hP]

theorem diffs_ap (a c : Int) : ∀ m, ∀ d ∈ diffs (ap a c m), d = c
  | 0 => by simp [ap, diffs]
  | 1 => by simp [ap, diffs]
  | m + 2 => by
    intro d hd
    have ih := diffs_ap (a + c) c (m + 1)
    rw [ap_succ] at hd
    rw [ap_succ] at hd ih
    simp only [diffs, List.mem_cons] at hd
    rcases hd with rfl | hd
    · ring
    · exact ih d hd

theorem even_progression (lo s k : Nat) : Tri.Even ((List.range k).map fun j => lo + j * s) := by
  refine ⟨s, ?_⟩
  have : ((List.range k).map fun j => lo + j * s).map (fun n : Nat => (n : Int)) = ap lo s k := by
    unfold ap
    rw [List.map_map]
    apply List.map_congr_left
    intro j _
    simp
  rw [this]
  exact diffs_ap _ _ _

theorem even_run (lo k : Nat) : Tri.Even ((List.range k).map (· + lo)) := by
  have := even_progression lo 1 k
  simpa [Nat.add_comm] using this

/-- Keys that increase along the axis have consecutive groups. -/
theorem even_of_mono {κ : Type} [LinearOrder κ] (f : Nat → κ) (hf : Monotone f) (n : Nat) (g : κ) :
    Tri.Even (groupIndices ((List.range n).map f) g) := by
  have e : groupIndices ((List.range n).map f) g = (List.range n).filter fun i => decide (f i = g) := by
    unfold groupIndices
    simp only [List.length_map, List.length_range]
    apply List.filter_congr
    intro i hi
    have : i < n := List.mem_range.mp hi
    simp [this]
  rw [e]
  obtain ⟨lo, k, e, -⟩ := filter_convex (fun i => decide (f i = g)) (by
    intro a b c hab hbc ha hc
    simp only [decide_eq_true_eq] at ha hc ⊢
    exact le_antisymm (hc ▸ hf hbc) (ha ▸ hf hab)) n
  rw [e]
  exact even_run lo k

namespace Tri
variable {K : Type} [Field K] [LinearOrder K] [IsStrictOrderedRing K]

theorem keptColumns_eq {len step : Nat} (hl : 1 ≤ len) (hs : 1 ≤ step) :
    keptColumns len step =
      (List.range ((len - 1) / step + 1)).map fun j => (len - 1) % step + j * step := by
  have hc : (len + step - 1) / step = (len - 1) / step + 1 := by
    rw [show len + step - 1 = (len - 1) + step by omega, Nat.add_div_right _ (by omega)]
  unfold keptColumns
  rw [hc]
  apply List.ext_getElem
  · simp
  · intro j h1 h2
    simp only [List.length_reverse, List.length_map, List.length_range] at h1
    simp only [List.getElem_reverse, List.getElem_map, List.getElem_range, List.length_map,
      List.length_range]
    have h3 := Nat.div_add_mod (len - 1) step
    set C := (len - 1) / step
    have : C + 1 - 1 - j = C - j := by omega
    rw [this]
    have h4 : (C - j) * step + j * step = step * C := by
      rw [← Nat.add_mul, Nat.mul_comm]; congr 1; omega
    omega

/-- The kept position at or after position `k`. -/
def keptAfter (len step k : Nat) : Nat := len - 1 - step * ((len - 1 - k) / step)

theorem columnGroups_eq {len step : Nat} (hl : 1 ≤ len) (hs : 1 ≤ step) :
    columnGroups len step = (List.range len).map (keptAfter len step) := by
  have h3 := Nat.div_add_mod (len - 1) step
  have hm : (len - 1) % step < step := Nat.mod_lt _ (by omega)
  unfold columnGroups
  rw [keptColumns_eq hl hs, List.range_succ_eq_map, List.map_cons, List.map_map]
  simp only
  set C := (len - 1) / step
  set d0 := (len - 1) % step
  have hlen : len = d0 + 1 + C * step := by rw [Nat.mul_comm]; omega
  have h1 : ∀ j ≤ C, ∀ x, x < step → (x ≤ d0 ∨ 1 ≤ j) →
      keptAfter len step (d0 + j * step - x) = d0 + j * step := by
    intro j hj x hx hxd
    unfold keptAfter
    have hxj : x ≤ d0 + j * step := by
      rcases hxd with h | h
      · omega
      · have : 1 * step ≤ j * step := Nat.mul_le_mul_right _ h
        omega
    have e : len - 1 - (d0 + j * step - x) = x + step * (C - j) := by
      have : C * step = (C - j) * step + j * step := by rw [← Nat.add_mul]; congr 1; omega
      rw [Nat.mul_comm step]
      omega
    rw [e, Nat.add_mul_div_left _ _ (by omega), Nat.div_eq_of_lt hx, Nat.zero_add]
    have : C * step = step * (C - j) + j * step := by
      rw [Nat.mul_comm step, ← Nat.add_mul]; congr 1; omega
    omega
  -- lay the blocks out one after the other
  have h2 : ∀ c ≤ C, List.replicate (d0 + 0 * step + 1) (d0 + 0 * step) ++
      (List.map ((fun j => d0 + j * step) ∘ Nat.succ) (List.range c)).flatMap
        (fun d => List.replicate step d) =
      (List.range (d0 + 1 + c * step)).map (keptAfter len step) := by
    intro c hc
    induction c with
    | zero =>
      simp only [Nat.zero_mul, Nat.add_zero, List.range_zero, List.map_nil, List.flatMap_nil,
        List.append_nil]
      apply List.ext_getElem
      · simp
      · intro i hi1 hi2
        simp only [List.length_replicate] at hi1
        simp only [List.getElem_replicate, List.getElem_map, List.getElem_range]
        have := h1 0 (by omega) (d0 - i) (by omega) (Or.inl (by omega))
        rw [Nat.zero_mul, Nat.add_zero] at this
        rw [← this]; congr 1; omega
    | succ c ih =>
      rw [List.range_succ, List.map_append, List.flatMap_append, ← List.append_assoc,
        ih (by omega), show d0 + 1 + (c + 1) * step = (d0 + 1 + c * step) + step by
          rw [Nat.add_mul]; omega, List.range_add (n := d0 + 1 + c * step), List.map_append]
      congr 1
      simp only [List.map_cons, List.map_nil, List.flatMap_cons, List.flatMap_nil, List.append_nil,
        Function.comp_apply, List.map_map]
      apply List.ext_getElem
      · simp
      · intro i hi1 hi2
        simp only [List.length_replicate] at hi1
        simp only [List.getElem_replicate, List.getElem_map, List.getElem_range,
          Function.comp_apply]
        have := h1 (c + 1) hc (step - 1 - i) (by omega) (Or.inr (by omega))
        rw [Nat.add_mul, Nat.one_mul] at this
        rw [Nat.succ_eq_add_one, Nat.add_mul, Nat.one_mul, ← this]; congr 1; omega
  rw [h2 C (le_refl _), ← hlen]

theorem keptAfter_mono (len step : Nat) : Monotone (keptAfter len step) := by
  intro a b hab
  unfold keptAfter
  have h1 : (len - 1 - b) / step ≤ (len - 1 - a) / step := Nat.div_le_div_right (by omega)
  have h2 : step * ((len - 1 - b) / step) ≤ step * ((len - 1 - a) / step) :=
    Nat.mul_le_mul_left _ h1
  omega

theorem keptAfter_eq_iff {len step k j : Nat} (hs : 1 ≤ step) (hk : k < len)
    (hj : j ≤ (len - 1) / step) : keptAfter len step k = (len - 1) % step + j * step ↔
      (len - 1) % step + j * step < k + step ∧ k ≤ (len - 1) % step + j * step := by
  have h3 := Nat.div_add_mod (len - 1) step
  have hm : (len - 1) % step < step := Nat.mod_lt _ (by omega)
  unfold keptAfter
  set C := (len - 1) / step
  set d0 := (len - 1) % step
  have e : C * step = (C - j) * step + j * step := by rw [← Nat.add_mul]; congr 1; omega
  rw [Nat.mul_comm] at h3
  have h4 := Nat.div_add_mod (len - 1 - k) step
  have h5 : (len - 1 - k) % step < step := Nat.mod_lt _ (by omega)
  set y := (len - 1 - k) / step
  constructor
  · intro h; omega
  · rintro ⟨h6, h7⟩
    have : y = C - j := by
      have l1 : step * y < step * (C - j + 1) := by
        rw [Nat.mul_add, Nat.mul_one, Nat.mul_comm step (C - j)]; omega
      have l2 : step * (C - j) < step * (y + 1) := by
        rw [Nat.mul_add, Nat.mul_one, Nat.mul_comm step (C - j)]; omega
      have := Nat.lt_of_mul_lt_mul_left l1
      have := Nat.lt_of_mul_lt_mul_left l2
      omega
    rw [this, Nat.mul_comm step]
    omega

/-- The groups are the kept positions. -/
theorem groupKeys_columnGroups {len step : Nat} (hl : 1 ≤ len) (hs : 1 ≤ step) :
    groupKeys (columnGroups len step) = keptColumns len step := by
  have h3 := Nat.div_add_mod (len - 1) step
  have hm : (len - 1) % step < step := Nat.mod_lt _ (by omega)
  refine List.Pairwise.eq_of_mem_iff (groupKeys_sorted _) ?_ fun x => ?_
  · rw [keptColumns_eq hl hs, List.pairwise_map]
    refine List.pairwise_lt_range.imp fun {i j} hij => ?_
    have : i * step < j * step := Nat.mul_lt_mul_of_pos_right hij (by omega)
    omega
  · rw [mem_groupKeys, columnGroups_eq hl hs, keptColumns_eq hl hs]
    simp only [List.mem_map, List.mem_range]
    constructor
    · rintro ⟨k, hk, rfl⟩
      refine ⟨(len - 1) / step - (len - 1 - k) / step,
        Nat.lt_succ_of_le (Nat.sub_le _ _), ?_⟩
      unfold keptAfter
      have h1 : (len - 1 - k) / step ≤ (len - 1) / step := Nat.div_le_div_right (by omega)
      have : step * ((len - 1) / step) = step * ((len - 1) / step - (len - 1 - k) / step) +
          step * ((len - 1 - k) / step) := by rw [← Nat.mul_add]; congr 1; omega
      rw [Nat.mul_comm _ step]
      omega
    · rintro ⟨j, hj, rfl⟩
      have hle : (len - 1) % step + j * step ≤ len - 1 := by
        have : j * step ≤ step * ((len - 1) / step) := by
          rw [Nat.mul_comm]; exact Nat.mul_le_mul_left _ (by omega)
        omega
      exact ⟨_, by omega, (keptAfter_eq_iff hs (by omega) (by omega)).mpr ⟨by omega, le_refl _⟩⟩

theorem positions_from_neg (n b : Nat) (hb : b ≤ n) (h0 : b ≠ 0) :
    (PySlice.mk (some (-(b : Int))) none none).positions n =
      .ok ((List.range b).map (· + (n - b))) := by
  have h : ¬ ((1 : Int) < 0) := by omega
  have h' : -(b : Int) < 0 := by omega
  simp only [PySlice.positions, PySlice.indices, Option.getD_none, one_ne_zero, if_false, h, h',
    if_true]
  simp only [pyRange_one, List.map_map]
  congr 1
  have : ((n : Int) - max (-(b : Int) + n) 0).toNat = b := by omega
  rw [this]
  apply List.map_congr_left
  intro i hi
  simp at hi ⊢
  omega

theorem selS_from_neg (n b : Nat) (hb : b ≤ n) (h0 : b ≠ 0) :
    SelS n (.from (-(b : Int))) ((List.range b).map (· + (n - b))) := by
  have h : SafePos n ⟨some (-(b : Int)), none, none⟩ := ⟨by simp, by simp, by simp⟩
  obtain ⟨k, h1, h2⟩ := normalize_pos h
  exact ⟨_, k, h1, rfl, by rw [h2, positions_from_neg n b hb h0]⟩

theorem axVd_of_mem {t : Tri K} {ax : Axis} {l : List Nat} {x : Int}
    (hx : x ∈ (axPart t ax l t.vd).valuations) (hv : t.vd ≤ x) : axVd t ax l = t.vd := by
  unfold axVd
  cases e : (axPart t ax l t.vd).valuations.max? with
  | none => rfl
  | some m =>
    have : x ≤ m := (List.max?_eq_some_iff.mp e).2 x hx
    exact min_eq_right (hv.trans this)

/-- The attributes that a change of grain keeps. -/
def Kept (u t : Tri K) : Prop :=
  u.kdims = t.kdims ∧ u.keyLabels = t.keyLabels ∧ u.vdims = t.vdims ∧ u.vd = t.vd ∧
  u.isCum = t.isCum ∧ u.isPattern = t.isPattern ∧ u.isAdditive = t.isAdditive

theorem Kept.trans {u t s : Tri K} (h : Kept u t) (k : Kept t s) : Kept u s :=
  ⟨h.1.trans k.1, h.2.1.trans k.2.1, h.2.2.1.trans k.2.2.1, h.2.2.2.1.trans k.2.2.2.1,
    h.2.2.2.2.1.trans k.2.2.2.2.1, h.2.2.2.2.2.1.trans k.2.2.2.2.2.1,
    h.2.2.2.2.2.2.trans k.2.2.2.2.2.2⟩

namespace ValGrid
variable {g : Tri K} {A : Int} {n C q L : Nat}

theorem last_mem (h : ValGrid g A n C q L) : g.ddims.getD (C - 1) 0 = g.vd := by
  rw [h.getK (by have := h.columns; omega), h.vd]

/-- Membership of the latest valuation in a selection of developments. -/
theorem axVd_dev (h : ValGrid g A n C q L) {l : List Nat} (hl : C - 1 ∈ l) :
    axVd g .development l = g.vd := by
  refine axVd_of_mem (x := g.vd) ?_ (le_refl _)
  rw [mem_valuations]
  obtain ⟨d, hd, e⟩ := List.getElem_of_mem hl
  refine ⟨0, d, ?_, ?_, ?_⟩
  · show 0 < ((List.range g.values.d2).map _).length
    rw [List.length_map, List.length_range, h.wf.2.2.1, h.lenO]
    have := h.origins; omega
  · show d < (l.map _).length
    simpa using hd
  · show valuationOf g.isVal _ (l.map (g.ddims.getD · 0)) g.vd 0 d = g.vd
    unfold valuationOf
    rw [h.isVal, if_pos rfl, List.getD_eq_getElem _ _ (by simpa using hd), List.getElem_map, e]
    exact h.last_mem

/-- The valuation date of a selection of origins. -/
theorem axVd_origin (h : ValGrid g A n C q L) {l : List Nat} (hl : l ≠ []) :
    axVd g .origin l = g.vd := by
  refine axVd_of_mem (x := g.vd) ?_ (le_refl _)
  rw [mem_valuations]
  have e3 : (List.range g.values.d3).map (g.ddims.getD · 0) = g.ddims := by
    rw [h.wf.2.2.2]; exact map_getD_range _ _
  refine ⟨0, C - 1, ?_, ?_, ?_⟩
  · show 0 < (l.map _).length
    rw [List.length_map]; exact List.length_pos_iff.mpr hl
  · show C - 1 < ((List.range g.values.d3).map (g.ddims.getD · 0)).length
    rw [e3, h.lenD]; have := h.columns; omega
  · show valuationOf g.isVal _ ((List.range g.values.d3).map (g.ddims.getD · 0)) g.vd 0 (C - 1) = g.vd
    unfold valuationOf
    rw [h.isVal, if_pos rfl, e3]
    exact h.last_mem

/-- The development axis to a coarser grain. -/
theorem coarsenDev_eq {step q' : Nat} {new : Grain} (h : ValGrid g A n C q g.dgrain.months)
    (hC : 2 ≤ C) (hne : g.dgrain ≠ new) (hs : Dev.valOffset g.dgrain new = some step)
    (hs1 : 1 ≤ step) (hq : q = step * q') (hm : new.months = step * g.dgrain.months) :
    ∃ u, coarsenDev g.dgrain new g = .ok u ∧
      ValGrid u A n ((C - 1) / step + 1) q' (((C - 1) % step + 1) * g.dgrain.months) ∧
      u.dgrain = new ∧ u.ograin = g.ograin ∧ Kept u g ∧
      ∀ i < g.kdims.length, ∀ c < g.vdims.length, ∀ o < n, ∀ j < (C - 1) / step + 1,
        (u.values.get i c o j).amt = ∑ k ∈ Finset.range C,
          if (g.isCum = some true → k = (C - 1) % step + j * step) ∧
            (C - 1) % step + j * step < k + step ∧ k ≤ (C - 1) % step + j * step then
            (g.values.get i c o k).amt else 0 := by
  have hd3 : g.values.d3 = C := by rw [h.wf.2.2.2, h.lenD]
  have hd2 : g.values.d2 = n := by rw [h.wf.2.2.1, h.lenO]
  have hdm := Nat.div_add_mod (C - 1) step
  have hmod : (C - 1) % step < step := Nat.mod_lt _ (by omega)
  have hle : ∀ j < (C - 1) / step + 1, (C - 1) % step + j * step < C := by
    intro j hj
    have : j * step ≤ step * ((C - 1) / step) := by
      rw [Nat.mul_comm]; exact Nat.mul_le_mul_left _ (by omega)
    omega
  have hkept := keptColumns_eq (len := C) (step := step) (by omega) hs1
  have hqn : q' * (n - 1) < (C - 1) / step + 1 := by
    have h1 := h.recent
    rw [hq] at h1
    have : step * (q' * (n - 1)) < step * ((C - 1) / step + 1) := by
      rw [← Nat.mul_assoc, Nat.mul_add]; omega
    exact Nat.lt_of_mul_lt_mul_left this
  have hq1 : 1 ≤ q' := by
    have := h.period
    rw [hq] at this
    exact Nat.pos_of_mul_pos_left this
  have hlast : C - 1 ∈ keptColumns C step := by
    rw [hkept]
    refine List.mem_map.mpr ⟨(C - 1) / step, by simp, ?_⟩
    rw [Nat.mul_comm]; omega
  have hod : (List.range n).map (fun o : Nat => A + (o * q * g.dgrain.months : Nat)) =
      (List.range n).map fun o : Nat => A + (o * q' * new.months : Nat) := by
    apply List.map_congr_left
    intro o _
    rw [hq, hm]; congr 2; ring
  have hdd : (keptColumns C step).map (g.ddims.getD · 0) =
      (List.range ((C - 1) / step + 1)).map fun k : Nat =>
        A + ((((C - 1) % step + 1) * g.dgrain.months : Nat) : Int) - 1 + (k * new.months : Nat) := by
    rw [hkept, List.map_map]
    apply List.map_congr_left
    intro j hj
    simp only [Function.comp_apply]
    rw [h.getK (hle j (List.mem_range.mp hj)), hm]
    push_cast; ring
  have hlag : 1 ≤ ((C - 1) % step + 1) * g.dgrain.months ∧
      ((C - 1) % step + 1) * g.dgrain.months ≤ new.months := by
    rw [hm]
    refine ⟨?_, Nat.mul_le_mul_right _ (by omega)⟩
    have := Nat.mul_le_mul (show 1 ≤ (C - 1) % step + 1 by omega) (months_pos g.dgrain)
    simpa using this
  have hvd : g.vd = A + ((((C - 1) % step + 1) * g.dgrain.months : Nat) : Int) - 1 +
      (((C - 1) / step + 1 - 1) * new.months : Nat) := by
    rw [h.vd, hm, Nat.add_sub_cancel]
    have : (C - 1) * g.dgrain.months = (C - 1) % step * g.dgrain.months +
        (C - 1) / step * (step * g.dgrain.months) := by
      rw [← Nat.mul_assoc, ← Nat.add_mul]; congr 1; rw [Nat.mul_comm _ step]; omega
    rw [this]; push_cast; ring
  have hbefore : ∀ o j k, j < q' * o → k ≤ (C - 1) % step + j * step → k < q * o := by
    intro o j k hj hk
    have : (j + 1) * step ≤ q' * o * step := Nat.mul_le_mul_right _ hj
    rw [Nat.add_mul] at this
    rw [hq, Nat.mul_assoc, Nat.mul_comm step]
    omega
  unfold coarsenDev
  rw [if_pos ⟨hne, by omega⟩, hs]
  simp only [h.lenD]
  by_cases hc : g.isCum = some true
  · -- cumulative: the kept columns
    have hin : InAxis g.values.d3 ((keptColumns C step).map fun j : Nat => (j : Int)) := by
      refine ⟨by simp [List.ne_nil_of_mem hlast], ?_⟩
      intro x hx
      obtain ⟨j, hj, rfl⟩ := List.mem_map.mp hx
      rw [hkept] at hj
      obtain ⟨y, hy, rfl⟩ := List.mem_map.mp hj
      have := hle y (List.mem_range.mp hy)
      rw [hd3]
      constructor <;> omega
    have hfs : fromStart g.values.d3 ((keptColumns C step).map fun j : Nat => (j : Int)) =
        keptColumns C step := by
      unfold fromStart
      rw [List.map_map]
      conv_rhs => rw [← List.map_id (keptColumns C step)]
      apply List.map_congr_left
      intro x _
      simp only [Function.comp]
      rw [if_neg (by omega)]
      simp
    have hr : ¬ OnlyRepeats g.values.d3 ((keptColumns C step).map fun j : Nat => (j : Int)) := by
      rintro ⟨h1, h2⟩
      rw [hfs] at h2
      rw [List.length_map, hkept, List.length_map, List.length_range] at h1
      rw [hkept] at h2
      have := h2 _ (List.mem_map.mpr ⟨0, List.mem_range.mpr (by omega), rfl⟩) _
        (List.mem_map.mpr ⟨1, List.mem_range.mpr (by omega), rfl⟩)
      omega
    have hsel := selS_lst hin hr (by rw [hfs, hkept]; exact even_progression _ _ _)
    rw [hfs] at hsel
    have he := ilocAx_sel (t := g) (ax := .development) hsel (List.ne_nil_of_mem hlast)
      (Or.inl h.isVal)
    rw [h.axVd_dev hlast] at he
    have he' : g.ilocD (.lst ((keptColumns C step).map fun j : Nat => (j : Int))) = _ := he
    rw [if_pos hc, he']
    obtain ⟨l0, l1, l2, -⟩ := axPart_labels h.wf .development (keptColumns C step) g.vd
    have hget : ∀ i < g.kdims.length, ∀ c < g.vdims.length, ∀ o < n, ∀ j < (C - 1) / step + 1,
        (axPart g .development (keptColumns C step) g.vd).values.get i c o j =
          g.values.get i c o ((C - 1) % step + j * step) := by
      intro i hi c hc o ho j hj
      show g.values.get ((List.range g.values.d0).getD i 0) ((List.range g.values.d1).getD c 0)
        ((List.range g.values.d2).getD o 0) ((keptColumns C step).getD j 0) = _
      rw [getD_range _ _ (by rw [h.wf.1]; exact hi), getD_range _ _ (by rw [h.wf.2.1]; exact hc),
        getD_range _ _ (by rw [hd2]; exact ho), hkept, List.getD_eq_getElem _ _ (by simpa using hj)]
      simp
    refine ⟨_, rfl, ?_, rfl, rfl, ⟨l0 (by decide), rfl, l1 (by decide), rfl, rfl, rfl, rfl⟩, ?_⟩
    · have hwf := axPart_wf (t := g) .development (keptColumns C step) g.vd
      refine ⟨hwf, ?_, h.isVal, h.origins, hq1, hqn, ?_, ?_, hlag, hvd, h.early, ?_⟩
      · intro i hi c hc' o ho j hj
        have e1 : i < g.kdims.length := by
          have := hwf.1 ▸ hi; rwa [l0 (by decide)] at this
        have e2 : c < g.vdims.length := by
          have := hwf.2.1 ▸ hc'; rwa [l1 (by decide)] at this
        have e3 : o < n := by
          have := hwf.2.2.1 ▸ ho; rw [l2 (by decide), h.lenO] at this; exact this
        have e4 : j < (C - 1) / step + 1 := by
          have : j < (keptColumns C step).length := hj
          rw [hkept] at this; simpa using this
        show Num.NoInf ((axPart g .development (keptColumns C step) g.vd).values.get i c o j)
        rw [hget i e1 c e2 o e3 j e4]
        exact h.finite _ (by rw [h.wf.1]; exact e1) _ (by rw [h.wf.2.1]; exact e2) _
          (by rw [hd2]; exact e3) _ (by rw [hd3]; exact hle j e4)
      · show (axPart g .development (keptColumns C step) g.vd).odims = _
        rw [l2 (by decide), h.odims]; exact hod
      · exact hdd
      · intro i hi c hc' o ho j hj hlt
        have e1 : i < g.kdims.length := by
          have : i < (axPart g .development (keptColumns C step) g.vd).kdims.length := hi
          rwa [l0 (by decide)] at this
        have e2 : c < g.vdims.length := by
          have : c < (axPart g .development (keptColumns C step) g.vd).vdims.length := hc'
          rwa [l1 (by decide)] at this
        show (axPart g .development (keptColumns C step) g.vd).values.get i c o j = _
        rw [hget i e1 c e2 o ho j hj]
        exact h.before i e1 c e2 o ho _ (hle j hj) (hbefore o j _ hlt (le_refl _))
    · intro i hi c hc' o ho j hj
      show (Num.amt ((axPart g .development (keptColumns C step) g.vd).values.get i c o j)) = _
      rw [hget i hi c hc' o ho j hj, Finset.sum_eq_single ((C - 1) % step + j * step)]
      · rw [if_pos ⟨fun _ => rfl, by omega, le_refl _⟩]
      · intro k _ hk
        rw [if_neg]
        rintro ⟨h1, -⟩
        exact hk (h1 hc)
      · intro hk
        exact absurd (Finset.mem_range.mpr (hle j hj)) hk
  · -- incremental: totals of the columns
    rw [if_neg hc]
    have hcg := columnGroups_eq (len := C) (step := step) (by omega) hs1
    have hclen : (columnGroups C step).length = C := by rw [hcg]; simp
    have hne' : columnGroups C step ≠ [] := by
      intro e; rw [e] at hclen; simp at hclen; omega
    have hgk := groupKeys_columnGroups (len := C) (step := step) (by omega) hs1
    obtain ⟨u, hu, hG, hkl, hog, hv1, hv2⟩ := groupParts_eq h.wf h.finite (Or.inl h.isVal) .development
      (keys := columnGroups C step) hne' (by rw [hclen]; exact h.lenD.symm)
      (fun _ x _ => by rw [hcg]; exact even_of_mono _ (keptAfter_mono _ _) _ _)
    have hvdu : u.vd = g.vd := by
      refine le_antisymm hv1 ?_
      have hmem : C - 1 ∈ columnGroups C step := by
        rw [← mem_groupKeys, hgk]; exact hlast
      have := hv2 _ hmem
      rw [h.axVd_dev] at this
      · exact this
      · unfold groupIndices
        refine List.mem_filter.mpr ⟨List.mem_range.mpr (by omega), ?_⟩
        rw [hcg]
        have hlt : C - 1 < C := by omega
        simp [hlt, keptAfter]
    have hu' : g.groupbyDevelopmentSum (columnGroups C step) = .ok u := hu
    rw [hu']
    rw [hgk] at hG
    have hdim : ∀ b, b ≠ Axis.development → u.values.dim b = g.values.dim b := hG.other
    have hC' : u.values.d3 = (C - 1) / step + 1 := by
      have : u.values.dim .development = _ := hG.dim
      rw [hkept, List.length_map, List.length_range] at this
      exact this
    have hget : ∀ i < g.kdims.length, ∀ c < g.vdims.length, ∀ o < n, ∀ j < (C - 1) / step + 1,
        u.values.get i c o j = (Num.fin (∑ k ∈ Finset.range C,
          if (C - 1) % step + j * step < k + step ∧ k ≤ (C - 1) % step + j * step then
            (g.values.get i c o k).amt else 0)).numToNan := by
      intro i hi c hc o ho j hj
      have := hG.cells (fun b => match b with
        | .index => i | .columns => c | .origin => o | .development => 0) (by
          intro b hb
          cases b
          · show i < g.values.d0; rw [h.wf.1]; exact hi
          · show c < g.values.d1; rw [h.wf.2.1]; exact hc
          · show o < g.values.d2; rw [hd2]; exact ho
          · exact absurd rfl hb) j (by rw [hkept]; simpa using hj)
      have e : u.values.get i c o j = (Num.fin (∑ k ∈ Finset.range g.values.d3,
          if (columnGroups C step)[k]? = some ((keptColumns C step)[j]'(by
            rw [hkept]; simpa using hj)) then (g.values.get i c o k).amt else 0)).numToNan := this
      rw [e, hd3]
      congr 2
      apply Finset.sum_congr rfl
      intro k hk
      have hk : k < C := Finset.mem_range.mp hk
      have e1 : (columnGroups C step)[k]? = some (keptAfter C step k) := by
        rw [hcg]; simp [hk]
      have e2 : (keptColumns C step)[j]'(by rw [hkept]; simpa using hj) =
          (C - 1) % step + j * step := by
        simp [hkept]
      rw [e1, e2]
      simp only [Option.some.injEq, keptAfter_eq_iff hs1 hk (show j ≤ (C - 1) / step by omega)]
    have hk0 : u.kdims = g.kdims := hG.index (by decide)
    have hk1 : u.vdims = g.vdims := hG.columns (by decide)
    have hk2 : u.odims = g.odims := hG.origins (by decide)
    have hd0 : u.values.d0 = g.values.d0 := hdim .index (by decide)
    have hd1 : u.values.d1 = g.values.d1 := hdim .columns (by decide)
    have hd2' : u.values.d2 = g.values.d2 := hdim .origin (by decide)
    have hdl : ((keptColumns C step).map (g.ddims.getD · 0)).length = (C - 1) / step + 1 := by
      rw [hdd]; simp
    refine ⟨_, rfl, ?_, rfl, hog, ⟨hk0, hkl (by decide), hk1, hvdu, hG.kept.2.1, hG.kept.2.2.1,
      hG.kept.2.2.2⟩, ?_⟩
    · refine ⟨⟨?_, ?_, ?_, ?_⟩, ?_, rfl, h.origins, hq1, hqn, ?_, hdd, hlag, ?_, ?_, ?_⟩
      · show u.values.d0 = u.kdims.length
        rw [hd0, hk0, h.wf.1]
      · show u.values.d1 = u.vdims.length
        rw [hd1, hk1, h.wf.2.1]
      · show u.values.d2 = u.odims.length
        rw [hd2', hk2, h.wf.2.2.1]
      · show u.values.d3 = _
        rw [hC']; exact hdl.symm
      · intro i hi c hc' o ho j hj
        show Num.NoInf (u.values.get i c o j)
        have e1 : i < u.values.d0 := hi
        have e2 : c < u.values.d1 := hc'
        have e3 : o < u.values.d2 := ho
        have e4 : j < u.values.d3 := hj
        rw [hget i (by rw [← h.wf.1, ← hd0]; exact e1) c (by rw [← h.wf.2.1, ← hd1]; exact e2) o
          (by rw [← hd2, ← hd2']; exact e3) j (by rw [← hC']; exact e4)]
        exact Num.noInf_numToNan (by trivial)
      · show u.odims = _
        rw [hk2, h.odims]; exact hod
      · show u.vd = _
        rw [hvdu]; exact hvd
      · show u.vd < _
        rw [hvdu]; exact h.early
      · intro i hi c hc' o ho j hj hlt
        have e1 : i < g.kdims.length := by rw [← hk0]; exact hi
        have e2 : c < g.vdims.length := by rw [← hk1]; exact hc'
        show u.values.get i c o j = .nan
        rw [hget i e1 c e2 o ho j hj, Finset.sum_eq_zero]
        · simp [Num.numToNan]
        · intro k hk
          split_ifs with hcond
          · rw [h.before i e1 c e2 o ho k (Finset.mem_range.mp hk) (hbefore o j k hlt hcond.2)]
            rfl
          · rfl
    · intro i hi c hc' o ho j hj
      show (u.values.get i c o j).amt = _
      rw [hget i hi c hc' o ho j hj, Num.amt_numToNan]
      show ∑ k ∈ Finset.range C, _ = _
      apply Finset.sum_congr rfl
      intro k _
      congr 1
      simp [hc]

end ValGrid
/-- The old triangle by valuation. -/
theorem Grid.byVal_grid {t : Tri K} {a : Int} {n D q : Nat} (h : Grid t a n D q)
    (he : t.vd < 12 * 2261) : ValGrid (Grid.byVal t D q) a n D q t.dgrain.months ∧
      ∀ i c, ∀ o < n, ∀ k < D, (Grid.byVal t D q).values.get i c o k =
        if q * o ≤ k then t.values.get i c o (k - q * o) else .nan := by
  have hkv := h.knownValuations
  have hp := months_pos t.dgrain
  have hlen : (Dev.knownValuations t).length = D := by rw [hkv]; simp
  have hcell : ∀ i c, ∀ o < n, ∀ k < D, (Grid.byVal t D q).values.get i c o k =
        if q * o ≤ k then t.values.get i c o (k - q * o) else .nan := by
    intro i c o ho k hk
    show (if 0 ≤ (k : Int) - o * q * 1 ∧ (k : Int) - o * q * 1 < t.values.d3 then
        t.values.get i c o ((k : Int) - o * q * 1).toNat else .nan) = _
    have e : (k : Int) - o * q * 1 = (k : Int) - ((q * o : Nat) : Int) := by push_cast; ring
    rw [e, h.wf.2.2.2, h.lenD]
    by_cases hq : q * o ≤ k
    · rw [if_pos hq, if_pos ⟨by omega, by omega⟩]
      congr 1; omega
    · rw [if_neg hq, if_neg (by omega)]
  refine ⟨⟨⟨h.wf.1, h.wf.2.1, h.wf.2.2.1, hlen.symm⟩, ?_, rfl, by have := h.two_origins; omega,
    h.period, h.recent, h.odims, ?_, ⟨hp, le_refl _⟩, ?_, he, ?_⟩, hcell⟩
  · intro i hi c hc o ho k hk
    have ho' : o < n := by
      have : o < t.values.d2 := ho
      rwa [h.wf.2.2.1, h.lenO] at this
    have hk' : k < D := hk
    rw [hcell i c o ho' k hk']
    split_ifs with hq
    · exact h.finite i hi c hc o ho _ (by rw [h.wf.2.2.2, h.lenD]; omega)
    · trivial
  · show Dev.knownValuations t = _
    rw [hkv]
    apply List.map_congr_left
    intro k _
    show _ = a + (t.dgrain.months : Int) - 1 + ((k * t.dgrain.months : Nat) : Int)
    push_cast; ring
  · show t.vd = a + (t.dgrain.months : Int) - 1 + (((D - 1) * t.dgrain.months : Nat) : Int)
    have hD := h.two_ages
    have : D * t.dgrain.months = t.dgrain.months + (D - 1) * t.dgrain.months := by
      rw [Nat.sub_mul, Nat.one_mul]
      have : 1 * t.dgrain.months ≤ D * t.dgrain.months := Nat.mul_le_mul_right _ (by omega)
      omega
    rw [h.vd, this]; push_cast; ring
  · intro i _ c _ o ho k hk hlt
    rw [hcell i c o ho k hk, if_neg (by omega)]

/-- Every period between the first and the last origin gets an origin. -/
theorem exists_group {r s W : Nat} (hr : r < W) (hs : s ≤ W) : ∀ N g, g ≤ (r + N * s) / W →
    ∃ o ≤ N, (r + o * s) / W = g
  | 0, g, hg => by
    refine ⟨0, le_refl _, ?_⟩
    have : (r + 0 * s) / W = 0 := by rw [Nat.zero_mul]; exact Nat.div_eq_of_lt hr
    omega
  | N + 1, g, hg => by
    by_cases h : g ≤ (r + N * s) / W
    · obtain ⟨o, ho, e⟩ := exists_group hr hs N g h
      exact ⟨o, by omega, e⟩
    · refine ⟨N + 1, le_refl _, ?_⟩
      have : (r + (N + 1) * s) / W ≤ (r + N * s) / W + 1 := by
        rw [← Nat.add_div_right _ (by omega)]
        apply Nat.div_le_div_right
        rw [Nat.add_mul, Nat.one_mul]; omega
      omega

theorem coarseOrigins_def (og : Grain) (odims : List Int) :
    coarseOrigins og odims = odims.map fun o => periodStart og (odims.getD 0 0) +
      og.months * ((o - periodStart og (odims.getD 0 0)) / og.months) := by
  cases og <;> rfl

theorem coarseOrigins_eq {og : Grain} {a : Int} {n s r : Nat} {odims : List Int}
    (hn : 1 ≤ n) (ho : odims = (List.range n).map fun o : Nat => a + (o * s : Nat))
    (hr : a = periodStart og a + r) :
    coarseOrigins og odims = (List.range n).map fun o : Nat =>
      periodStart og a + (((r + o * s) / og.months * og.months : Nat) : Int) := by
  have h0 : odims.getD 0 0 = a := by
    rw [ho, List.getD_eq_getElem _ _ (by simp; omega)]; simp
  rw [coarseOrigins_def, h0, ho, List.map_map]
  apply List.map_congr_left
  intro o _
  simp only [Function.comp_apply]
  have e : a + ((o * s : Nat) : Int) - periodStart og a = ((r + o * s : Nat) : Int) := by
    push_cast; omega
  rw [e]
  push_cast
  ring

theorem groupKeys_coarse {A : Int} {n s r W : Nat} (hn : 1 ≤ n) (hr : r < W) (hs : s ≤ W) :
    groupKeys ((List.range n).map fun o : Nat => A + (((r + o * s) / W * W : Nat) : Int)) =
      (List.range ((r + (n - 1) * s) / W + 1)).map fun g : Nat => A + ((g * W : Nat) : Int) := by
  refine List.Pairwise.eq_of_mem_iff (groupKeys_sorted _) ?_ fun x => ?_
  · rw [List.pairwise_map]
    refine List.pairwise_lt_range.imp fun {i j} hij => ?_
    have : i * W < j * W := Nat.mul_lt_mul_of_pos_right hij (by omega)
    omega
  · rw [mem_groupKeys]
    simp only [List.mem_map, List.mem_range]
    constructor
    · rintro ⟨o, ho, rfl⟩
      refine ⟨_, ?_, rfl⟩
      have : (r + o * s) / W ≤ (r + (n - 1) * s) / W := by
        apply Nat.div_le_div_right
        have : o * s ≤ (n - 1) * s := Nat.mul_le_mul_right _ (by omega)
        omega
      omega
    · rintro ⟨g, hg, rfl⟩
      obtain ⟨o, ho, e⟩ := exists_group hr hs (n - 1) g (by omega)
      exact ⟨o, by omega, by rw [e]⟩

namespace ValGrid
variable {v : Tri K} {a : Int} {n D q : Nat}

/-- The origins to a coarser grain, on a triangle by valuation. -/
theorem groupOrigins_eq (h : ValGrid v a n D q v.dgrain.months) {og : Grain}
    {r q' : Nat} (hr : a = periodStart og a + r) (hrW : r < og.months)
    (hW : og.months = q' * v.dgrain.months) (hsW : q ≤ q')
    (hg : getGrain ((List.range ((r + (n - 1) * (q * v.dgrain.months)) / og.months + 1)).map
      fun g : Nat => periodStart og a + ((g * og.months : Nat) : Int)) = og) :
    ∃ u, v.groupbyOriginSum (coarseOrigins og v.odims) = .ok u ∧ u.dgrain = v.dgrain ∧
      u.ograin = og ∧ Kept u v ∧ WF u ∧ u.isVal = true ∧ u.ddims = v.ddims ∧
      u.odims = (List.range ((r + (n - 1) * (q * v.dgrain.months)) / og.months + 1)).map
        (fun g : Nat => periodStart og a + ((g * og.months : Nat) : Int)) ∧
      ∀ i < v.kdims.length, ∀ c < v.vdims.length,
        ∀ g < (r + (n - 1) * (q * v.dgrain.months)) / og.months + 1, ∀ k < D,
        u.values.get i c g k = (Num.fin (∑ o ∈ Finset.range n,
          if (r + o * (q * v.dgrain.months)) / og.months = g then (v.values.get i c o k).amt
            else 0)).numToNan := by
  have hn := h.origins
  have hs : q * v.dgrain.months ≤ og.months := by rw [hW]; exact Nat.mul_le_mul_right _ hsW
  have hd3 : v.values.d3 = D := by rw [h.wf.2.2.2, h.lenD]
  have hd2 : v.values.d2 = n := by rw [h.wf.2.2.1, h.lenO]
  have hco := coarseOrigins_eq (og := og) (s := q * v.dgrain.months) hn
    (h.odims.trans (by simp only [Nat.mul_assoc])) hr
  have hgk := groupKeys_coarse (A := periodStart og a) hn hrW hs
  rw [hco]
  generalize hN : (r + (n - 1) * (q * v.dgrain.months)) / og.months + 1 = n' at *
  generalize hkeys : (List.range n).map (fun o : Nat =>
      periodStart og a + (((r + o * (q * v.dgrain.months)) / og.months * og.months : Nat) : Int)) = keys at *
  have hklen : keys.length = n := by rw [← hkeys]; simp
  have hkne : keys ≠ [] := by
    intro e; rw [e] at hklen; simp at hklen; omega
  have hmono : Monotone fun o : Nat =>
      periodStart og a + (((r + o * (q * v.dgrain.months)) / og.months * og.months : Nat) : Int) := by
    intro x y hxy
    have h1 : (r + x * (q * v.dgrain.months)) / og.months ≤ (r + y * (q * v.dgrain.months)) / og.months := by
      apply Nat.div_le_div_right
      have : x * (q * v.dgrain.months) ≤ y * (q * v.dgrain.months) := Nat.mul_le_mul_right _ hxy
      omega
    have := Nat.mul_le_mul_right og.months h1
    simp only
    omega
  obtain ⟨u, hu, hG, hkl, hog, hv1, hv2⟩ := groupParts_eq h.wf h.finite (Or.inl h.isVal) .origin
      (keys := keys) hkne (by rw [hklen]; exact h.lenO.symm)
      (fun _ x _ => by rw [← hkeys]; exact even_of_mono _ hmono _ _)
  have hvdu : u.vd = v.vd := by
    refine le_antisymm hv1 ?_
    obtain ⟨x, hx⟩ := List.exists_mem_of_ne_nil _ hkne
    have := hv2 x hx
    rwa [h.axVd_origin (groupIndices_ne_nil hx)] at this
  have hdim : ∀ b, b ≠ Axis.origin → u.values.dim b = v.values.dim b := hG.other
  have hk0 : u.kdims = v.kdims := hG.index (by decide)
  have hk1 : u.vdims = v.vdims := hG.columns (by decide)
  have hk3 : u.ddims = v.ddims := (hG.developments (by decide)).1
  have hd0' : u.values.d0 = v.values.d0 := hdim .index (by decide)
  have hd1' : u.values.d1 = v.values.d1 := hdim .columns (by decide)
  have hd3' : u.values.d3 = v.values.d3 := hdim .development (by decide)
  have hd2' : u.values.d2 = n' := by
    have : u.values.dim .origin = _ := hG.dim
    rw [hgk, List.length_map, List.length_range] at this
    exact this
  have e : v.groupbyOriginSum keys = .ok { u with
      odims := groupKeys keys
      ograin := getGrain (groupKeys keys) } := by
    unfold groupbyOriginSum; rw [hu]; rfl
  rw [hgk, hg] at e
  refine ⟨_, e, hG.kept.1, rfl, ⟨hk0, hkl (by decide), hk1, hvdu, hG.kept.2.1, hG.kept.2.2.1,
      hG.kept.2.2.2⟩, ⟨?_, ?_, ?_, ?_⟩, ((hG.developments (by decide)).2).trans h.isVal, hk3, rfl, ?_⟩
  · show u.values.d0 = u.kdims.length
    rw [hd0', hk0, h.wf.1]
  · show u.values.d1 = u.vdims.length
    rw [hd1', hk1, h.wf.2.1]
  · show u.values.d2 = (List.map _ (List.range n')).length
    rw [hd2']; simp
  · show u.values.d3 = u.ddims.length
    rw [hd3', hk3, h.wf.2.2.2]
  · intro i hi c hc g hg k hk
    rw [hgk] at hG
    have := hG.cells (fun b => match b with
        | .index => i | .columns => c | .origin => 0 | .development => k) (by
          intro b hb
          cases b
          · show i < v.values.d0; rw [h.wf.1]; exact hi
          · show c < v.values.d1; rw [h.wf.2.1]; exact hc
          · exact absurd rfl hb
          · show k < v.values.d3; rw [hd3]; exact hk) g (by simpa using hg)
    have e : u.values.get i c g k = (Num.fin (∑ o ∈ Finset.range v.values.d2,
          if keys[o]? = some (((List.range n').map
            (fun g : Nat => periodStart og a + ((g * og.months : Nat) : Int)))[g]'(by simpa using hg))
            then (v.values.get i c o k).amt else 0)).numToNan := this
    show u.values.get i c g k = _
    rw [e, hd2]
    congr 2
    apply Finset.sum_congr rfl
    intro o ho
    have ho : o < n := Finset.mem_range.mp ho
    have e1 : keys[o]? = some (periodStart og a +
        (((r + o * (q * v.dgrain.months)) / og.months * og.months : Nat) : Int)) := by
      rw [← hkeys]; simp [ho]
    have e2 : keys[o]? = some (((List.range n').map
            (fun g : Nat => periodStart og a + ((g * og.months : Nat) : Int)))[g]'(by simpa using hg)) ↔
        (r + o * (q * v.dgrain.months)) / og.months = g := by
      rw [e1, Option.some.injEq, List.getElem_map, List.getElem_range]
      constructor
      · intro hh
        have : (r + o * (q * v.dgrain.months)) / og.months * og.months = g * og.months := by omega
        exact Nat.eq_of_mul_eq_mul_right (months_pos og) this
      · rintro rfl; rfl
    by_cases hc : (r + o * (q * v.dgrain.months)) / og.months = g
    · rw [if_pos hc, if_pos (e2.mpr hc)]
    · rw [if_neg hc, if_neg (fun hh => hc (e2.mp hh))]

/-- The origins to a coarser grain with the valuations before the first one. -/
theorem coarsenOrigins_eq (h : ValGrid v a n D q v.dgrain.months) (hD : 2 ≤ D) {og : Grain}
    (hog : og ≠ .M) {r p q' : Nat} (hr : a = periodStart og a + r) (hrW : r < og.months)
    (hrp : r = p * v.dgrain.months) (hp : v.dgrain = .M ∨ (v.dgrain = .Q ∧ p = 0)) (hpD : p ≤ D)
    (hW : og.months = q' * v.dgrain.months) (hsW : q ≤ q')
    (hg : getGrain ((List.range ((r + (n - 1) * (q * v.dgrain.months)) / og.months + 1)).map
      fun g : Nat => periodStart og a + ((g * og.months : Nat) : Int)) = og) :
    ∃ u, (v.groupbyOriginSum (coarseOrigins og v.odims) >>= prependZeros v.dgrain) = .ok u ∧
      ValGrid u (periodStart og a) ((r + (n - 1) * (q * v.dgrain.months)) / og.months + 1) (D + p) q'
        v.dgrain.months ∧
      u.dgrain = v.dgrain ∧ u.ograin = og ∧ Kept u v ∧
      ∀ i < v.kdims.length, ∀ c < v.vdims.length,
        ∀ g < (r + (n - 1) * (q * v.dgrain.months)) / og.months + 1, ∀ k < D + p,
        (u.values.get i c g k).amt = ∑ o ∈ Finset.range n,
          if (r + o * (q * v.dgrain.months)) / og.months = g ∧ p ≤ k then
            (v.values.get i c o (k - p)).amt else 0 := by
  obtain ⟨u, hu, hdg, hogu, hkept, hwf, hval, hdd, hod, hcell⟩ :=
    h.groupOrigins_eq hr hrW hW hsW hg
  obtain ⟨k1, k2, k3, k4, k5, k6, k7⟩ := hkept
  rw [hu]
  have hm := months_pos v.dgrain
  have hWpos := months_pos og
  have hq' : 1 ≤ q' := le_trans h.period hsW
  generalize hN : (r + (n - 1) * (q * v.dgrain.months)) / og.months + 1 = n' at *
  have hn1 : 1 ≤ n' := by rw [← hN]; exact Nat.succ_pos _
  have hO : u.odims.length = n' := by rw [hod]; simp
  have hDl : u.ddims.length = D := by rw [hdd, h.lenD]
  -- facts for the grid
  have hrec : q' * (n' - 1) < D + p := by
    have h1 : n' - 1 = (r + (n - 1) * (q * v.dgrain.months)) / og.months := by omega
    have h2 : og.months * (n' - 1) ≤ r + (n - 1) * (q * v.dgrain.months) := by
      rw [h1]; exact Nat.mul_div_le _ _
    have h3 : q' * (n' - 1) * v.dgrain.months ≤ (p + q * (n - 1)) * v.dgrain.months := by
      calc q' * (n' - 1) * v.dgrain.months = og.months * (n' - 1) := by rw [hW]; ring
        _ ≤ _ := h2
        _ = (p + q * (n - 1)) * v.dgrain.months := by rw [hrp]; ring
    have := Nat.le_of_mul_le_mul_right h3 hm
    have := h.recent
    omega
  have hodims : u.odims = (List.range n').map fun g : Nat =>
      periodStart og a + ((g * q' * v.dgrain.months : Nat) : Int) := by
    rw [hod]; apply List.map_congr_left; intro g _; rw [hW, Nat.mul_assoc]
  have hbefore : ∀ g k o, k < q' * g → (r + o * (q * v.dgrain.months)) / og.months = g → k < p + q * o := by
    intro g k o hk e
    have h2 : og.months * g ≤ r + o * (q * v.dgrain.months) := by
      rw [← e]; exact Nat.mul_div_le _ _
    have h3 : q' * g * v.dgrain.months ≤ (p + q * o) * v.dgrain.months := by
      calc q' * g * v.dgrain.months = og.months * g := by rw [hW]; ring
        _ ≤ _ := h2
        _ = (p + q * o) * v.dgrain.months := by rw [hrp]; ring
    have := Nat.le_of_mul_le_mul_right h3 hm
    omega
  have hzero : ∀ i < v.kdims.length, ∀ c < v.vdims.length, ∀ g < n', ∀ k < D, k + p < q' * g →
      u.values.get i c g k = .nan := by
    intro i hi c hc g hg k hk hlt
    rw [hcell i hi c hc g hg k hk, Finset.sum_eq_zero]
    · simp [Num.numToNan]
    · intro o ho
      split_ifs with he
      · have := hbefore g (k + p) o hlt he
        rw [h.before i hi c hc o (Finset.mem_range.mp ho) k hk (by omega)]
        rfl
      · rfl
  have hfin : ∀ i < v.kdims.length, ∀ c < v.vdims.length, ∀ g < n', ∀ k < D,
      Num.NoInf (u.values.get i c g k) := by
    intro i hi c hc g hg k hk
    rw [hcell i hi c hc g hg k hk]
    exact Num.noInf_numToNan (by trivial)
  have hv0 : u.ddims.getD 0 0 = a + v.dgrain.months - 1 := by
    rw [hdd, h.getK (by omega)]; simp
  have ho0 : u.odims.getD 0 0 = periodStart og a := by
    rw [hod, List.getD_eq_getElem _ _ (by simp; omega)]; simp
  have hpp : periodStart og (periodStart og a) = periodStart og a := by
    cases og <;> simp [periodStart] <;> omega
  have hnS : ¬(v.dgrain = .S ∨ (v.dgrain ≠ .M ∧ u.ograin = .M)) := by
    rw [hogu]
    rintro (e | e)
    · rcases hp with e' | e' <;> simp [e] at e'
    · exact hog e.2
  simp only [bind, Except.bind]
  rcases Nat.eq_zero_or_pos p with hp0 | hp0
  · -- nothing is put before
    subst hp0
    rw [Nat.zero_mul] at hrp
    subst hrp
    rw [Int.natCast_zero, Int.add_zero] at hr
    have hpre : prependZeros v.dgrain u = .ok u := by
      unfold prependZeros
      rw [if_neg hnS]
      simp only
      rw [if_neg]
      rintro ⟨-, hne⟩
      apply hne
      rw [ho0, hv0, hogu, hpp, ← hr]
      rcases hp with e | ⟨e, -⟩
      · simp [e, periodStart, Grain.months]
      · rw [e]
        show a = a + 3 - 1 - (a + 3 - 1) % 3
        have : a % 3 = 0 := by
          cases og
          · simp only [periodStart] at hr; omega
          · simp only [periodStart] at hr; omega
          · simp only [periodStart] at hr; omega
          · exact absurd rfl hog
        omega
    rw [hpre]
    refine ⟨u, rfl, ?_, hdg, hogu, ⟨k1, k2, k3, k4, k5, k6, k7⟩, ?_⟩
    · refine ⟨hwf, ?_, hval, hn1, hq', hrec, by rw [hdg]; exact hodims, ?_, ⟨hm, by rw [hdg]⟩, ?_, ?_, ?_⟩
      · intro i hi c hc g hg k hk
        rw [hwf.1, k1] at hi
        rw [hwf.2.1, k3] at hc
        rw [hwf.2.2.1, hO] at hg
        rw [hwf.2.2.2, hDl] at hk
        exact hfin i hi c hc g hg k hk
      · rw [hdd, h.ddims, hdg, ← hr]; rfl
      · rw [k4, h.vd, hdg, ← hr]; rfl
      · rw [k4]; exact h.early
      · intro i hi c hc g hg k hk hlt
        exact hzero i (by rw [← k1]; exact hi) c (by rw [← k3]; exact hc) g hg k hk hlt
    · intro i hi c hc g hg k hk
      rw [hcell i hi c hc g hg k hk, Num.amt_numToNan]
      simp only [Nat.zero_le, and_true, Nat.sub_zero]
      rfl
  · -- months put before
    have hM : v.dgrain = .M := by
      rcases hp with e | e
      · exact e
      · omega
    have hm1 : v.dgrain.months = 1 := by rw [hM]; rfl
    have hrp' : r = p := by rw [hrp, hm1]; ring
    subst hrp'
    have hsel : SelS u.values.d3 (.from (-(r : Int))) ((List.range r).map (· + (D - r))) := by
      rw [hwf.2.2.2, hDl]
      exact selS_from_neg D r hpD (by omega)
    have hne : ((List.range r).map (· + (D - r))) ≠ [] := by
      intro e; have := congrArg List.length e; simp at this; omega
    have he := ilocAx_sel (t := u) (ax := .development) hsel hne (Or.inl hval)
    have he' : u.ilocD (.from (-(r : Int))) = _ := he
    have hw := axPart_wf (t := u) .development ((List.range r).map (· + (D - r)))
      (axVd u .development ((List.range r).map (· + (D - r))))
    obtain ⟨l0, l1, l2, -⟩ := axPart_labels hwf .development ((List.range r).map (· + (D - r)))
      (axVd u .development ((List.range r).map (· + (D - r))))
    have hvle := axVd_le u .development ((List.range r).map (· + (D - r)))
    have hkk : ((a + v.dgrain.months - 1) / (v.dgrain.months : Int) -
        periodStart og a / (v.dgrain.months : Int)).toNat = r := by
      rw [hm1]; push_cast; rw [Int.ediv_one, Int.ediv_one]; omega
    have hcond : 1 < u.ddims.length ∧ periodStart u.ograin (periodStart og a) ≠
        periodStart v.dgrain (a + v.dgrain.months - 1) := by
      refine ⟨by omega, ?_⟩
      rw [hogu, hpp, hM]
      show _ ≠ a + ((Grain.M.months : Nat) : Int) - 1
      simp only [Grain.months]
      omega
    have hDdims : (List.range r).map (fun j : Nat => (v.dgrain.months : Int) *
          (periodStart og a / (v.dgrain.months : Int) + j)) ++ u.ddims =
        (List.range (D + r)).map fun k : Nat =>
          periodStart og a + (v.dgrain.months : Int) - 1 + ((k * v.dgrain.months : Nat) : Int) := by
      rw [hdd, h.ddims, hm1, Nat.add_comm D r, List.range_add, List.map_append, List.map_map]
      congr 1
      · apply List.map_congr_left; intro j _; simp
      · apply List.map_congr_left; intro j _
        simp only [Function.comp_apply, Nat.mul_one]; push_cast; omega
    have hnd : ((List.range r).map (fun j : Nat => (v.dgrain.months : Int) *
          (periodStart og a / (v.dgrain.months : Int) + j)) ++ u.ddims).Nodup := by
      rw [hDdims, hm1]
      apply List.Nodup.map _ List.nodup_range
      intro x y e
      simp at e
      exact e
    have hadr : ∀ l w, (axPart u .development l w).isVal = u.isVal ∧
        (axPart u .development l w).keyLabels = u.keyLabels ∧
        (axPart u .development l w).vd = w ∧ (axPart u .development l w).ograin = u.ograin ∧
        (axPart u .development l w).dgrain = u.dgrain ∧ (axPart u .development l w).isCum = u.isCum ∧
        (axPart u .development l w).isPattern = u.isPattern ∧
        (axPart u .development l w).isAdditive = u.isAdditive ∧
        (axPart u .development l w).values.d3 = l.length :=
      fun l w => ⟨rfl, rfl, rfl, rfl, rfl, rfl, rfl, rfl, rfl⟩
    obtain ⟨r1, r2, r3, r4, r5, r6, r7, r8, r9⟩ := hadr ((List.range r).map (· + (D - r)))
      (axVd u .development ((List.range r).map (· + (D - r))))
    rw [List.length_map, List.length_range] at r9
    replace l0 := l0 (by decide)
    replace l1 := l1 (by decide)
    replace l2 := l2 (by decide)
    have hadget : ∀ i < v.kdims.length, ∀ c < v.vdims.length, ∀ g < n', ∀ k < r,
        (axPart u .development ((List.range r).map (· + (D - r)))
          (axVd u .development ((List.range r).map (· + (D - r))))).values.get i c g k =
          u.values.get i c g (k + (D - r)) := by
      intro i hi c hc g hg k hk
      show u.values.get ((List.range u.values.d0).getD i 0) ((List.range u.values.d1).getD c 0)
        ((List.range u.values.d2).getD g 0) (((List.range r).map (· + (D - r))).getD k 0) = _
      rw [getD_range _ _ (by rw [hwf.1, k1]; exact hi), getD_range _ _ (by rw [hwf.2.1, k3]; exact hc),
        getD_range _ _ (by rw [hwf.2.2.1, hO]; exact hg),
        List.getD_eq_getElem _ _ (by simpa using hk)]
      simp
    generalize hAd : axPart u .development ((List.range r).map (· + (D - r)))
      (axVd u .development ((List.range r).map (· + (D - r)))) = ad at *
    have hpre : prependZeros v.dgrain u = .ok { ad with
        ddims := (List.range r).map (fun j : Nat => (v.dgrain.months : Int) *
          (periodStart og a / (v.dgrain.months : Int) + j)) ++ u.ddims
        vd := max ad.vd u.vd
        values := { ad.values with
          d3 := ad.values.d3 + u.values.d3
          get := fun i c o d => Num.numToNan (if d < ad.values.d3 then ad.values.get i c o d * 0
            else u.values.get i c o (d - ad.values.d3)) } } := by
      unfold prependZeros
      rw [if_neg hnS]
      simp only
      rw [hv0, ho0, if_pos hcond, hkk, he']
      simp only [bind, Except.bind]
      rw [concat_dev]
      · rfl
      · exact l1.symm
      · exact l0.symm
      · exact l2.symm
      · exact r1.symm
      · show ad.values.d0 = _
        rw [hw.1, l0, hwf.1]
      · show ad.values.d1 = _
        rw [hw.2.1, l1, hwf.2.1]
      · show ad.values.d2 = _
        rw [hw.2.2.1, l2, hwf.2.2.1]
      · exact hnd
    have hmax : max ad.vd u.vd = v.vd := by rw [r3, max_eq_right hvle, k4]
    rw [hpre, hmax, hDdims]
    have hget : ∀ i < v.kdims.length, ∀ c < v.vdims.length, ∀ g < n', ∀ k < D + r,
        Num.numToNan (if k < ad.values.d3 then ad.values.get i c g k * 0
            else u.values.get i c g (k - ad.values.d3)) =
          if k < r then .nan else u.values.get i c g (k - r) := by
      intro i hi c hc g hg k hk
      rw [r9]
      by_cases hkr : k < r
      · rw [if_pos hkr, if_pos hkr, hadget i hi c hc g hg k hkr]
        have := hfin i hi c hc g hg (k + (D - r)) (by omega)
        cases e : u.values.get i c g (k + (D - r)) with
        | nan => rfl
        | ninf => rw [e] at this; exact absurd this (by simp [Num.NoInf])
        | pinf => rw [e] at this; exact absurd this (by simp [Num.NoInf])
        | fin x =>
          show Num.numToNan (Num.fin (x * 0)) = _
          simp [Num.numToNan]
      · rw [if_neg hkr, if_neg hkr, hcell i hi c hc g hg (k - r) (by omega)]
        exact Num.numToNan_numToNan _
    refine ⟨_, rfl, ?_, r5.trans hdg, r4.trans hogu, ⟨l0.trans k1, r2.trans k2, l1.trans k3, rfl,
      r6.trans k5, r7.trans k6, r8.trans k7⟩, ?_⟩
    · refine ⟨⟨?_, ?_, ?_, ?_⟩, ?_, r1.trans hval, hn1, hq', hrec, ?_, ?_, ⟨hm, ?_⟩, ?_, h.early, ?_⟩
      · exact hw.1
      · exact hw.2.1
      · exact hw.2.2.1
      · show ad.values.d3 + u.values.d3 = (List.map _ (List.range (D + r))).length
        rw [r9, hwf.2.2.2, hDl, List.length_map, List.length_range, Nat.add_comm]
      · intro i hi c hc g hg k hk
        have e1 : i < v.kdims.length := by
          have : i < ad.values.d0 := hi
          rwa [hw.1, l0, k1] at this
        have e2 : c < v.vdims.length := by
          have : c < ad.values.d1 := hc
          rwa [hw.2.1, l1, k3] at this
        have e3 : g < n' := by
          have : g < ad.values.d2 := hg
          rwa [hw.2.2.1, l2, hO] at this
        have e4 : k < D + r := by
          have : k < ad.values.d3 + u.values.d3 := hk
          rwa [r9, hwf.2.2.2, hDl, Nat.add_comm] at this
        show Num.NoInf (Num.numToNan _)
        rw [hget i e1 c e2 g e3 k e4]
        split_ifs with hkr
        · trivial
        · exact hfin i e1 c e2 g e3 (k - r) (by omega)
      · show ad.odims = (List.range n').map fun o : Nat => periodStart og a +
          ((o * q' * ad.dgrain.months : Nat) : Int)
        rw [l2, r5, hdg]; exact hodims
      · show (List.range (D + r)).map _ = (List.range (D + r)).map fun k : Nat =>
          periodStart og a + (v.dgrain.months : Int) - 1 + ((k * ad.dgrain.months : Nat) : Int)
        rw [r5, hdg]
      · show v.dgrain.months ≤ ad.dgrain.months
        rw [r5, hdg]
      · show v.vd = periodStart og a + (v.dgrain.months : Int) - 1 +
          (((D + r - 1) * ad.dgrain.months : Nat) : Int)
        rw [r5, hdg, h.vd, hm1]; omega
      · intro i hi c hc g hg k hk hlt
        have e1 : i < v.kdims.length := by
          have : i < ad.kdims.length := hi
          rwa [l0, k1] at this
        have e2 : c < v.vdims.length := by
          have : c < ad.vdims.length := hc
          rwa [l1, k3] at this
        show Num.numToNan _ = _
        rw [hget i e1 c e2 g hg k hk]
        split_ifs with hkr
        · rfl
        · exact hzero i e1 c e2 g hg (k - r) (by omega) (by omega)
    · intro i hi c hc g hg k hk
      show Num.amt (Num.numToNan _) = _
      rw [hget i hi c hc g hg k hk]
      by_cases hkr : k < r
      · rw [if_pos hkr, Finset.sum_eq_zero]
        · rfl
        · intro o _
          rw [if_neg (by omega)]
      · rw [if_neg hkr, hcell i hi c hc g hg (k - r) (by omega), Num.amt_numToNan]
        have : r ≤ k := by omega
        simp only [this, and_true]
        rfl

end ValGrid
end Tri
end CL
