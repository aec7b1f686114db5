import Verif.Lemmas.BoxVal

set_option linter.unusedSectionVars false

/-! # Blocks of a triangle -/

namespace CL
namespace Tri
variable {K : Type} [Field K] [LinearOrder K] [IsStrictOrderedRing K]

/-- `k` labels from position `s`. -/
def run (f : Nat → Int) (s k : Nat) : List Int := (List.range k).map fun j => f (s + j)

section
variable {f : Nat → Int} (hf : ∀ k, f k < f (k + 1))
include hf

theorem run_pairwise (s k : Nat) : (run f s k).Pairwise (· < ·) :=
  Berq.steps_pairwise k (fun j => f (s + j)) fun j => hf (s + j)

theorem run_mem {s k p : Nat} : f p ∈ run f s k ↔ s ≤ p ∧ p < s + k := by
  unfold run
  simp only [List.mem_map, List.mem_range, Berq.steps_inj hf]
  constructor
  · rintro ⟨j, h, rfl⟩; omega
  · rintro ⟨h1, h2⟩; exact ⟨p - s, by omega, by omega⟩

theorem run_idx {s k p : Nat} (h1 : s ≤ p) (h2 : p < s + k) : (run f s k).idxOf (f p) = p - s := by
  have h := List.Nodup.idxOf_getElem (xs := run f s k) (nodup_of_lt (run_pairwise hf s k)) (p - s)
    (by simp [run]; omega)
  have e : (run f s k)[p - s]'(by simp [run]; omega) = f p := by
    simp only [run, List.getElem_map, List.getElem_range]
    rw [show s + (p - s) = p by omega]
  rwa [e] at h

theorem run_gap {s k s' k' : Nat} : NoGap (run f s k) (run f s' k') := by
  have hm : StrictMono f := strictMono_nat_of_lt_succ hf
  intro y hy p hp q hq h1 h2
  simp only [run, List.mem_map, List.mem_range] at hy hp hq ⊢
  obtain ⟨i, hi, rfl⟩ := hy
  obtain ⟨p, hp, rfl⟩ := hp
  obtain ⟨q, hq, rfl⟩ := hq
  have := hm.lt_iff_lt.1 h1
  have := hm.lt_iff_lt.1 h2
  exact ⟨s' + i - s, by omega, by congr 1; omega⟩

theorem run_union {s k s' k' m : Nat} (h1 : s + k ≤ m) (h2 : s' + k' ≤ m)
    (h : (s = 0 ∧ k = m) ∨ (s' = 0 ∧ k' = m)) :
    unionSorted (run f s k) (run f s' k') = (List.range m).map f := by
  refine unionSorted_eq (Berq.steps_pairwise m f hf) fun y => ?_
  simp only [run, List.mem_map, List.mem_range]
  constructor
  · rintro ⟨p, hp, rfl⟩
    rcases h with ⟨rfl, rfl⟩ | ⟨rfl, rfl⟩
    · exact Or.inl ⟨p, hp, by rw [Nat.zero_add]⟩
    · exact Or.inr ⟨p, hp, by rw [Nat.zero_add]⟩
  · rintro (⟨p, hp, rfl⟩ | ⟨p, hp, rfl⟩)
    · exact ⟨s + p, by omega, rfl⟩
    · exact ⟨s' + p, by omega, rfl⟩
end

/-- The label of an origin. -/
def rowLabel (x : Tri K) (a : Int) (q o : Nat) : Int := a + (o * q * x.dgrain.months : Nat)

/-- The label of an age. -/
def colLabel (x : Tri K) (d : Nat) : Int := (((d + 1) * x.dgrain.months : Nat) : Int)

/-- `u` has one column, `k` origins from `s`, `m` ages from `e`, and cells `g` by their place in `x`. -/
structure Part (x u : Tri K) (a : Int) (q s k e m : Nat) (v : Int) (fl : Flags) (g : Nat → Nat → Nat → Num K) :
    Prop where
  wf : WF u
  kdims : u.kdims = x.kdims
  keyLabels : u.keyLabels = x.keyLabels
  one : u.vdims.length = 1
  odims : u.odims = run (rowLabel x a q) s k
  ddims : u.ddims = run (colLabel x) e m
  isVal : u.isVal = false
  ograin : u.ograin = x.ograin
  dgrain : u.dgrain = x.dgrain
  vd : u.vd = v
  flags : u.flags = fl
  cell : ∀ i < x.kdims.length, ∀ o < k, ∀ d < m, u.values.get i 0 o d = g i (s + o) (e + d)

variable {x b s t p r : Tri K} {a : Int} {n D q s1 k1 e1 m1 s2 k2 e2 m2 : Nat} {v w : Int} {fl fl' : Flags}
  {f g h : Nat → Nat → Nat → Num K}

theorem rowLabel_lt (hx : Grid x a n D q) (o : Nat) : rowLabel x a q o < rowLabel x a q (o + 1) := by
  have h1 := months_pos x.dgrain
  have h2 := hx.period
  have : o * q * x.dgrain.months < (o + 1) * q * x.dgrain.months :=
    Nat.mul_lt_mul_of_pos_right (Nat.mul_lt_mul_of_pos_right (by omega) h2) h1
  unfold rowLabel; omega

theorem colLabel_lt (x : Tri K) (d : Nat) : colLabel x d < colLabel x (d + 1) := by
  have h1 := months_pos x.dgrain
  have : (d + 1) * x.dgrain.months < (d + 1 + 1) * x.dgrain.months := Nat.mul_lt_mul_of_pos_right (by omega) h1
  unfold colLabel; omega

theorem Box.part (hx : Grid x a n D q) (hb : Box x b v fl f) : Part x b a q 0 n 0 D v fl f := by
  refine ⟨hb.wf, hb.kdims, hb.keyLabels, hb.one, ?_, ?_, hb.isVal, hb.ograin, hb.dgrain, hb.vd, hb.flags, ?_⟩
  · rw [hb.odims, hx.odims]
    unfold run
    refine List.map_congr_left fun j _ => ?_
    rw [Nat.zero_add]; rfl
  · rw [hb.ddims, hx.ddims]
    unfold run
    refine List.map_congr_left fun j _ => ?_
    rw [Nat.zero_add]; rfl
  · intro i hi o ho d hd
    rw [hb.cell i hi o (by rw [hx.lenO]; exact ho) d (by rw [hx.lenD]; exact hd), Nat.zero_add, Nat.zero_add]

/-- The block of a cell, or nothing. -/
def within (s k e m : Nat) (g : Nat → Nat → Nat → Num K) (i o d : Nat) : Num K :=
  if (s ≤ o ∧ o < s + k) ∧ (e ≤ d ∧ d < e + m) then g i o d else .nan

theorem Part.labelled (hx : Grid x a n D q) (hp : Part x p a q s1 k1 e1 m1 v fl g) (ho : 2 ≤ k1) (hd : 2 ≤ m1)
    (hm : e1 + m1 ≤ D) : Labelled p := by
  refine ⟨by rw [hp.odims]; exact run_pairwise (rowLabel_lt hx) _ _, by rw [hp.ddims]; exact run_pairwise (colLabel_lt x) _ _,
    by rw [hp.odims]; simp [run, ho], by rw [hp.ddims]; simp [run, hd], ?_⟩
  intro _ y hy
  rw [hp.ddims] at hy
  simp only [run, List.mem_map, List.mem_range] at hy
  obtain ⟨j, hj, rfl⟩ := hy
  have : (e1 + j + 1) * x.dgrain.months ≤ D * x.dgrain.months := Nat.mul_le_mul_right _ (by omega)
  have := hx.short
  unfold colLabel; omega

/-- A block and the whole triangle added up. -/
theorem Part.add (hx : Grid x a n D q) (hp : Part x p a q s1 k1 e1 m1 v fl g) (hr : Part x r a q s2 k2 e2 m2 w fl' h)
    (o1 : 2 ≤ k1) (d1 : 2 ≤ m1) (o2 : 2 ≤ k2) (d2 : 2 ≤ m2) (b1 : s1 + k1 ≤ n) (b2 : s2 + k2 ≤ n) (c1 : e1 + m1 ≤ D)
    (c2 : e2 + m2 ≤ D) (full : (s1 = 0 ∧ k1 = n ∧ e1 = 0 ∧ m1 = D) ∨ (s2 = 0 ∧ k2 = n ∧ e2 = 0 ∧ m2 = D))
    (diff : k1 ≠ k2 ∨ m1 ≠ m2) (hv : x.vd ≤ max v w) :
    ∃ u, p.add r = .ok u ∧ Box x u (max v w) (fl.1, fl.2.1 && fl'.2.1, fl.2.2) fun i o d =>
      kept x (max v w) o d ((within s1 k1 e1 m1 g i o d).nanToNum + (within s2 k2 e2 m2 h i o d).nanToNum) := by
  have hn := hx.two_origins
  have hD := hx.two_ages
  have ffo := rowLabel_lt hx
  have ffd := colLabel_lt x
  set r' : Tri K := { r with vdims := p.vdims } with hr'
  have wr' : WF r' := by
    refine ⟨hr.wf.1, ?_, hr.wf.2.2.1, hr.wf.2.2.2⟩
    show r.values.d1 = p.vdims.length
    rw [hr.wf.2.1, hr.one, hp.one]
  have lp := hp.labelled hx o1 d1 c1
  have lr : Labelled r' := by
    have := hr.labelled hx o2 d2 c2
    exact ⟨this.origins, this.developments, this.two_origins, this.two_developments, this.ages⟩
  have hsame : SameButDates p r' := ⟨hp.kdims.trans hr.kdims.symm, hp.keyLabels.trans hr.keyLabels.symm, rfl,
    hp.isVal.trans hr.isVal.symm, hp.ograin.trans hr.ograin.symm, hp.dgrain.trans hr.dgrain.symm⟩
  have ro : r'.odims = run (rowLabel x a q) s2 k2 := hr.odims
  have rd : r'.ddims = run (colLabel x) e2 m2 := hr.ddims
  obtain ⟨xa, ya, hval, ⟨s0, s1', s2', s3⟩, hshape, hxa, hya⟩ := validate_union hsame hp.wf wr' lp lr
    (by rw [hp.odims, ro]; exact run_gap ffo) (by rw [hp.odims, ro]; exact run_gap ffo)
    (by rw [hp.ddims, rd]; exact run_gap ffd) (by rw [hp.ddims, rd]; exact run_gap ffd)
    (not_broadcastable hp.wf wr' lp lr hsame.isVal (by
      rcases diff with h | h
      · exact Or.inl (Or.inl (by rw [hp.odims, ro]; simpa [run] using h))
      · exact Or.inr (Or.inl (by rw [hp.ddims, rd]; simpa [run] using h))))
  have uo : unionSorted p.odims r'.odims = x.odims := by
    rw [hp.odims, ro, hx.odims]
    exact run_union ffo b1 b2 (by
      rcases full with h | h
      · exact Or.inl ⟨h.1, h.2.1⟩
      · exact Or.inr ⟨h.1, h.2.1⟩)
  have ud : unionSorted p.ddims r'.ddims = x.ddims := by
    rw [hp.ddims, rd, hx.ddims]
    exact run_union ffd c1 c2 (by
      rcases full with h | h
      · exact Or.inl ⟨h.2.2.1, h.2.2.2⟩
      · exact Or.inr ⟨h.2.2.1, h.2.2.2⟩)
  rw [uo, ud] at hval hxa hya
  rw [uo] at s2'
  rw [ud] at s3
  have hvd : max p.vd r'.vd = max v w := by
    show max p.vd r.vd = _
    rw [hp.vd, hr.vd]
  rw [hvd] at hval
  obtain ⟨T, hT⟩ : ∃ T : Tri K, T = { p with
      isPattern := p.isPattern && r'.isPattern
      vd := max v w
      odims := x.odims
      ddims := x.ddims
      values := { xa with
        get := fun i c o d => (xa.get i c o d).nanToNum + (ya.get i c o d).nanToNum } } := ⟨_, rfl⟩
  have hadd : p.add r = .ok T.cleanup := by
    rw [hT]
    simp only [Tri.add, Berq.validate_rename hp.wf hr.wf hp.one hr.one, bind, Except.bind]
    rw [hval]
    simp only
    exact addArr_same hshape
  have hTb : Box x T (max v w) (fl.1, fl.2.1 && fl'.2.1, fl.2.2) fun i o d =>
      (within s1 k1 e1 m1 g i o d).nanToNum + (within s2 k2 e2 m2 h i o d).nanToNum := by
    subst hT
    refine ⟨⟨s0.trans hp.wf.1, s1'.trans hp.wf.2.1, s2', s3⟩, hp.kdims, hp.keyLabels, hp.one, rfl, rfl, hp.isVal,
      hp.ograin, hp.dgrain, rfl, ?_, ?_⟩
    · rw [← hp.flags, ← hr.flags]; rfl
    · intro i hi o ho d hd
      have go : x.odims.getD o 0 = rowLabel x a q o := hx.getO (by rw [← hx.lenO]; exact ho)
      have gd : x.ddims.getD d 0 = colLabel x d := hx.getDv (by rw [← hx.lenD]; exact hd)
      have ex := hxa i 0 o d ho hd
      have ey := hya i 0 o d ho hd
      rw [go, gd, hp.odims, hp.ddims] at ex
      rw [go, gd, ro, rd] at ey
      simp only [run_mem ffo, run_mem ffd] at ex ey
      show (xa.get i 0 o d).nanToNum + (ya.get i 0 o d).nanToNum = _
      have hx1 : xa.get i 0 o d = within s1 k1 e1 m1 g i o d := by
        rw [ex]
        unfold within
        split_ifs with hh
        · rw [run_idx ffo hh.1.1 hh.1.2, run_idx ffd hh.2.1 hh.2.2, hp.cell i hi _ (by omega) _ (by omega)]
          congr 1 <;> omega
        · rfl
      have hy1 : ya.get i 0 o d = within s2 k2 e2 m2 h i o d := by
        rw [ey]
        unfold within
        split_ifs with hh
        · rw [run_idx ffo hh.1.1 hh.1.2, run_idx ffd hh.2.1 hh.2.2]
          show r.values.get i 0 _ _ = _
          rw [hr.cell i hi _ (by omega) _ (by omega)]
          congr 1 <;> omega
        · rfl
      rw [hx1, hy1]
  exact ⟨_, hadd, hTb.cleanup hx hv⟩

theorem At.run {l l' : List Int} {f : Nat → Int} {s k m : Nat} (h : At l l' ((List.range k).map (· + s)))
    (hl : l = (List.range m).map f) (hm : s + k ≤ m) : l' = run f s k := by
  apply List.ext_getElem?
  intro j
  by_cases hj : j < k
  · have := h.2 j (by simpa using hj)
    rw [this, hl]
    simp only [List.getElem_map, List.getElem_range, Tri.run]
    rw [Nat.add_comm j s]
    simp [hj, show s + j < m by omega]
  · have := h.1
    rw [List.getElem?_eq_none (by rw [this]; simp; omega), List.getElem?_eq_none (by simp [Tri.run]; omega)]

/-- A filter by valuation of a full rectangle. -/
theorem Box.getVal (hx : Grid x a n D q) (hb : Box x b v fl f) (hv : x.vd ≤ v) (hu : v ≤ ultVal) {P : Int → Bool}
    {rows cols : List Nat} (hr : rows.Pairwise (· < ·)) (hc : cols.Pairwise (· < ·))
    (mr : ∀ o, o ∈ rows ↔ o < n ∧ ∃ d < D, P (x.valuation o d) = true)
    (mc : ∀ d, d ∈ cols ↔ d < D ∧ ∃ o < n, P (x.valuation o d) = true) (ne : rows ≠ []) (er : Even rows) (ec : Even cols) :
    ∃ u, b.getVal P = .ok u ∧ FilterSpec b u (fun o d => P (b.valuation o d)) rows cols ∧ Keeps b u ∧
      ∀ i < x.kdims.length, ∀ o (ho : o < rows.length), ∀ d (hd : d < cols.length), u.values.get i 0 o d =
        if P (x.valuation rows[o] cols[d]) then (f i rows[o] cols[d]).numToNan else .nan := by
  have hD := hx.two_ages
  obtain ⟨e0, e1, e2, e3⟩ := hb.dims
  rw [hx.lenO] at e2
  rw [hx.lenD] at e3
  have hrows : keyRows b.values.d2 b.values.d3 (fun o d => P (b.valuation o d)) = rows := by
    refine List.Pairwise.eq_of_mem_iff (keyRows_pairwise _ _ _) hr fun o => ?_
    rw [mem_keyRows, mr, e2, e3]
    refine and_congr_right fun ho => ?_
    simp only [hb.valuation hx hv ho]
  have hcols : keyCols b.values.d2 b.values.d3 (fun o d => P (b.valuation o d)) = cols := by
    refine List.Pairwise.eq_of_mem_iff (keyCols_pairwise _ _ _) hc fun d => ?_
    rw [mem_keyCols, mc, e2, e3]
    refine and_congr_right fun hd => ?_
    constructor
    · rintro ⟨o, ho, h⟩
      rw [hb.valuation hx hv ho] at h
      exact ⟨o, ho, h⟩
    · rintro ⟨o, ho, h⟩
      rw [← hb.valuation hx hv ho] at h
      exact ⟨o, ho, h⟩
  obtain ⟨u, h1, h2, -⟩ := filterMask_spec (t := b) hb.wf
    (fun _ => ⟨by
      rw [hb.odims, hb.vd]
      exact fun o ho => le_trans ((hx.ordered hx.isVal).1 o ho) hv,
      by rw [hb.ddims]; exact (hx.ordered hx.isVal).2.1, by rw [hb.ddims]; exact (hx.ordered hx.isVal).2.2⟩)
    (fun _ => by rw [hb.vd]; exact hu) (key := fun o d => P (b.valuation o d))
    (by rw [hrows]; exact ne) (by rw [hrows]; exact er) (by rw [hcols]; exact ec)
  rw [hrows, hcols] at h2
  have hg : b.getVal P = .ok u := by
    unfold Tri.getVal
    rw [if_pos (by rw [e3]; omega)]
    exact h1
  refine ⟨u, hg, h2, getVal_keepsAll (by rw [e3]; omega) hg, ?_⟩
  intro i hi o ho d hd
  rw [h2.cells i 0 o d (by rw [e0]; exact hi) (by rw [e1]; omega) ho hd]
  have h3 := ((mr _).1 (List.getElem_mem ho)).1
  have h4 := ((mc _).1 (List.getElem_mem hd)).1
  rw [hb.valuation hx hv h3, hb.cell i hi _ (by rw [hx.lenO]; exact h3) _ (by rw [hx.lenD]; exact h4)]

/-- The cells after the valuation date. -/
theorem Box.future (hx : Grid x a n D q) (hb : Box x b v fl f) (hv : lastDate x a n D q ≤ v) (hu : v ≤ ultVal) :
    ∃ u, b.getVal (fun y => decide (x.vd < y)) = .ok u ∧
      Part x u a q 1 (n - 1) (D - q * (n - 1)) (q * (n - 1)) (lastDate x a n D q) fl fun i o d =>
        if D ≤ q * o + d then (f i o d).numToNan else .nan := by
  have hn := hx.two_origins
  have hD := hx.two_ages
  have hrec := hx.recent
  have hq1 := hx.period
  have hq' : 1 ≤ q * (n - 1) := Nat.mul_pos (by omega) (by omega)
  have hle : x.vd ≤ v := le_trans hx.le_last hv
  have hgt : ∀ o < n, ∀ d < D, decide (x.vd < x.valuation o d) = true ↔ D ≤ q * o + d := by
    intro o ho d hd
    rw [decide_eq_true_eq, hx.valuation_gt ho hd]; omega
  have hmul : ∀ o < n, q * o ≤ q * (n - 1) := fun o ho => Nat.mul_le_mul_left _ (by omega)
  have hmul1 : ∀ o, 1 ≤ o → q ≤ q * o := fun o ho => Nat.le_mul_of_pos_right _ (by omega)
  obtain ⟨u, h1, h2, h3, h4⟩ := hb.getVal hx hle hu (P := fun y => decide (x.vd < y))
    (rows := (List.range (n - 1)).map (· + 1)) (cols := (List.range (q * (n - 1))).map (· + (D - q * (n - 1))))
    (by rw [List.pairwise_map]; exact List.pairwise_lt_range.imp fun {i j} h => by omega)
    (by rw [List.pairwise_map]; exact List.pairwise_lt_range.imp fun {i j} h => by omega)
    (fun o => by
      simp only [List.mem_map, List.mem_range]
      constructor
      · rintro ⟨j, hj, rfl⟩
        refine ⟨by omega, D - 1, by omega, (hgt _ (by omega) _ (by omega)).2 ?_⟩
        have := hmul1 (j + 1) (by omega)
        omega
      · rintro ⟨ho, d, hd, h⟩
        have h := (hgt o ho d hd).1 h
        have : o ≠ 0 := by rintro rfl; omega
        exact ⟨o - 1, by omega, by omega⟩)
    (fun d => by
      simp only [List.mem_map, List.mem_range]
      constructor
      · rintro ⟨j, hj, rfl⟩
        exact ⟨by omega, n - 1, by omega, (hgt _ (by omega) _ (by omega)).2 (by omega)⟩
      · rintro ⟨hd, o, ho, h⟩
        have h := (hgt o ho d hd).1 h
        have := hmul o ho
        exact ⟨d - (D - q * (n - 1)), by omega, by omega⟩)
    (List.ne_nil_of_mem (List.mem_map.2 ⟨0, List.mem_range.2 (by omega), rfl⟩))
    (even_run _ _) (even_run _ _)
  refine ⟨u, h1, ⟨h2.wf, h2.index.trans hb.kdims, h3.keyLabels.trans hb.keyLabels, by rw [h2.columns, hb.one], ?_, ?_,
    h3.isVal.trans hb.isVal, h3.ograin.trans hb.ograin, h3.dgrain.trans hb.dgrain, ?_, ?_, ?_⟩⟩
  · have := h2.origins
    rw [hb.odims] at this
    exact this.run hx.odims (by omega)
  · have := h2.developments
    rw [hb.ddims] at this
    exact this.run hx.ddims (by omega)
  · obtain ⟨m, ⟨o, d, ho, hd, -, e⟩, hm, e'⟩ := h2.vd
    rw [hb.odims, hx.lenO] at ho
    rw [hb.ddims, hx.lenD] at hd
    have hlast := hm (n - 1) (D - 1) (by rw [hb.odims, hx.lenO]; omega) (by rw [hb.ddims, hx.lenD]; omega)
      (by
        rw [hb.valuation hx hle (by omega)]
        exact (hgt _ (by omega) _ (by omega)).2 (by omega))
    rw [hb.valuation hx hle (by omega), hx.valuation_is_last] at hlast
    rw [hb.valuation hx hle ho] at e
    have := hx.valuation_last ho hd
    rw [e', hb.vd, ← e]
    rw [← e] at hlast
    rw [le_antisymm this hlast, min_eq_left hv]
  · rw [← hb.flags]
    show (u.isCum, u.isPattern, u.isAdditive) = (b.isCum, b.isPattern, b.isAdditive)
    rw [h3.isCum, h3.isPattern, h3.isAdditive]
  · intro i hi o ho d hd
    rw [h4 i hi o (by simpa using ho) d (by simpa using hd)]
    simp only [List.getElem_map, List.getElem_range]
    rw [Nat.add_comm o 1, Nat.add_comm d]
    simp only [hgt (1 + o) (by omega) (D - q * (n - 1) + d) (by omega)]

end Tri
end CL
