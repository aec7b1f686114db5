import Verif.Model.Sparse
import Verif.Lemmas.Along
import Verif.Lemmas.Convert

set_option linter.unusedSectionVars false

/-! # Lemmas on the sparse backend -/


namespace CL

/-- Inside a shape. -/
def Ix.Inside (p : Ix) (d0 d1 d2 d3 : Nat) : Prop := p.i < d0 ∧ p.c < d1 ∧ p.o < d2 ∧ p.d < d3

theorem Ix.mem_all {p : Ix} {d0 d1 d2 d3 : Nat} : p ∈ Ix.all d0 d1 d2 d3 ↔ p.Inside d0 d1 d2 d3 := by
  simp only [Ix.all, List.mem_flatMap, List.mem_range, List.mem_map, Ix.Inside]
  constructor
  · rintro ⟨i, hi, c, hc, o, ho, d, hd, rfl⟩
    exact ⟨hi, hc, ho, hd⟩
  · rintro ⟨hi, hc, ho, hd⟩
    exact ⟨p.i, hi, p.c, hc, p.o, ho, p.d, hd, rfl⟩

theorem Ix.nodup_all (d0 d1 d2 d3 : Nat) : (Ix.all d0 d1 d2 d3).Nodup := by
  unfold Ix.all
  refine List.nodup_flatMap.2 ⟨fun i _ => List.nodup_flatMap.2 ⟨fun c _ => List.nodup_flatMap.2
    ⟨fun o _ => ?_, ?_⟩, ?_⟩, ?_⟩
  · refine List.Nodup.map (fun a b h => ?_) List.nodup_range
    injection h
  · refine List.Pairwise.imp_of_mem (fun {a b} _ _ h => ?_) List.nodup_range
    rw [Function.onFun, List.disjoint_left]
    intro x hx hy
    simp only [List.mem_map] at hx hy
    obtain ⟨_, _, rfl⟩ := hx
    obtain ⟨_, _, e⟩ := hy
    injection e with _ _ e
    exact h e.symm
  · refine List.Pairwise.imp_of_mem (fun {a b} _ _ h => ?_) List.nodup_range
    rw [Function.onFun, List.disjoint_left]
    intro x hx hy
    simp only [List.mem_flatMap, List.mem_map] at hx hy
    obtain ⟨_, _, _, _, rfl⟩ := hx
    obtain ⟨_, _, _, _, e⟩ := hy
    injection e with _ e
    exact h e.symm
  · refine List.Pairwise.imp_of_mem (fun {a b} _ _ h => ?_) List.nodup_range
    rw [Function.onFun, List.disjoint_left]
    intro x hx hy
    simp only [List.mem_flatMap, List.mem_map] at hx hy
    obtain ⟨_, _, _, _, _, _, rfl⟩ := hx
    obtain ⟨_, _, _, _, _, _, e⟩ := hy
    injection e with e
    exact h e.symm

namespace Coo
variable {K : Type} [Field K] [LinearOrder K] [IsStrictOrderedRing K]

theorem same_eq {x y : Num K} (h : same x y = true) : x = y := by
  unfold same at h
  cases x <;> cases y <;> simp_all [Num.eqb, Num.isNan]

theorem same_self (x : Num K) : same x x = true := by
  cases x <;> simp [same, Num.eqb, Num.isNan]

theorem stored_mem {s : Coo K} {p : Ix} {x : Num K} (h : s.stored p = some x) : (p, x) ∈ s.cells := by
  unfold stored at h
  cases hf : s.cells.find? (fun e => e.1 = p) with
  | none => rw [hf] at h; cases h
  | some e =>
    rw [hf] at h
    injection h with h
    have h1 := List.find?_some hf
    simp only [decide_eq_true_eq] at h1
    have : e = (p, x) := Prod.ext h1 h
    exact this ▸ List.mem_of_find?_eq_some hf

theorem mem_stored {s : Coo K} (hn : (s.cells.map (·.1)).Nodup) {e : Ix × Num K} (h : e ∈ s.cells) :
    s.stored e.1 = some e.2 := by
  unfold stored
  cases hf : s.cells.find? (fun e' => e'.1 = e.1) with
  | none =>
    rw [List.find?_eq_none] at hf
    simpa using hf e h
  | some e' =>
    have h1 := List.find?_some hf
    simp only [decide_eq_true_eq] at h1
    have h2 := List.mem_of_find?_eq_some hf
    have : e' = e := List.inj_on_of_nodup_map hn h2 h h1
    rw [this]; rfl

theorem stored_iff {s : Coo K} (hn : (s.cells.map (·.1)).Nodup) {p : Ix} {x : Num K} :
    s.stored p = some x ↔ (p, x) ∈ s.cells := ⟨stored_mem, fun h => mem_stored hn h⟩

theorem mem_build {ps : List Ix} {g : Ix → Option (Num K)} {fill : Num K} {e : Ix × Num K} :
    e ∈ build ps g fill ↔ e.1 ∈ ps ∧ g e.1 = some e.2 ∧ same e.2 fill = false := by
  unfold build
  rw [List.mem_filterMap]
  constructor
  · rintro ⟨p, hp, h⟩
    cases hg : g p with
    | none => rw [hg] at h; cases h
    | some x =>
      rw [hg] at h
      simp only at h
      split_ifs at h with hs
      injection h with h
      subst h
      exact ⟨hp, hg, by simpa using hs⟩
  · rintro ⟨hp, hg, hs⟩
    exact ⟨e.1, hp, by rw [hg]; simp [hs]⟩

theorem nodup_build {ps : List Ix} (hn : ps.Nodup) (g : Ix → Option (Num K)) (fill : Num K) :
    ((build ps g fill).map (·.1)).Nodup := by
  unfold build
  induction ps with
  | nil => simp
  | cons p ps ih =>
    rw [List.nodup_cons] at hn
    have ih := ih hn.2
    rw [List.filterMap_cons]
    cases hg : g p with
    | none => exact ih
    | some x =>
      simp only
      split_ifs with hs
      · exact ih
      · simp only [List.map_cons, List.nodup_cons]
        refine ⟨fun hm => ?_, ih⟩
        obtain ⟨e, he, e1⟩ := List.mem_map.1 hm
        have := (mem_build (ps := ps) (g := g) (fill := fill)).1 he
        exact hn.1 (e1 ▸ this.1)

/-- `s` has the contents of `a`. -/
structure Rep (s : Coo K) (a : Arr K) : Prop where
  d0 : s.d0 = a.d0
  d1 : s.d1 = a.d1
  d2 : s.d2 = a.d2
  d3 : s.d3 = a.d3
  nodup : (s.cells.map (·.1)).Nodup
  inside : ∀ e ∈ s.cells, e.1.Inside a.d0 a.d1 a.d2 a.d3
  cell : ∀ p : Ix, p.Inside a.d0 a.d1 a.d2 a.d3 → s.get p = a.get p.i p.c p.o p.d

/-- As `Rep`, with NaN or 0 as fill value and no NaN among the stored values. -/
structure Holds (s : Coo K) (a : Arr K) : Prop extends Rep s a where
  fill : s.fill = .nan ∨ s.fill = .fin 0
  noNan : ∀ e ∈ s.cells, e.2 ≠ .nan

theorem Rep.stored_eq {s : Coo K} {a : Arr K} (h : Rep s a) {e : Ix × Num K} (he : e ∈ s.cells) :
    e.2 = a.get e.1.i e.1.c e.1.o e.1.d := by
  rw [← h.cell _ (h.inside e he), get, mem_stored h.nodup he, Option.getD_some]

/-- A table built from a function. -/
theorem rep_build {d0 d1 d2 d3 : Nat} {g : Ix → Option (Num K)} {fill : Num K} {a : Arr K}
    (e0 : d0 = a.d0) (e1 : d1 = a.d1) (e2 : d2 = a.d2) (e3 : d3 = a.d3)
    (h : ∀ p : Ix, p.Inside a.d0 a.d1 a.d2 a.d3 → (g p).getD fill = a.get p.i p.c p.o p.d) :
    Rep ⟨d0, d1, d2, d3, build (Ix.all d0 d1 d2 d3) g fill, fill⟩ a := by
  subst e0 e1 e2 e3
  have hn := nodup_build (Ix.nodup_all a.d0 a.d1 a.d2 a.d3) g fill
  refine ⟨rfl, rfl, rfl, rfl, hn, fun e he => Ix.mem_all.1 (mem_build.1 he).1, fun p hp => ?_⟩
  rw [← h p hp]
  unfold get
  cases hs : stored (⟨a.d0, a.d1, a.d2, a.d3, build (Ix.all a.d0 a.d1 a.d2 a.d3) g fill, fill⟩ : Coo K) p with
  | some x =>
    have := mem_build.1 (stored_mem hs)
    rw [this.2.1]
  | none =>
    cases hg : g p with
    | none => rfl
    | some x =>
      rw [Option.getD_none, Option.getD_some]
      by_cases hx : same x fill = true
      · exact (same_eq hx).symm
      · exfalso
        have hm : (p, x) ∈ build (Ix.all a.d0 a.d1 a.d2 a.d3) g fill :=
          mem_build.2 ⟨Ix.mem_all.2 hp, hg, by simpa using hx⟩
        have := mem_stored (s := ⟨a.d0, a.d1, a.d2, a.d3, build (Ix.all a.d0 a.d1 a.d2 a.d3) g fill, fill⟩) hn hm
        rw [hs] at this
        cases this

theorem ofArr_rep (a : Arr K) (fill : Num K) : Rep (ofArr a fill) a :=
  rep_build rfl rfl rfl rfl fun _ _ => rfl

theorem array_holds (a : Arr K) : Holds (array a) a where
  toRep := ofArr_rep a .nan
  fill := .inl rfl
  noNan := by
    intro e he h
    simp only [array, ofArr] at he
    have := (mem_build.1 he).2.2
    rw [h] at this
    simp [same, Num.isNan] at this

/-- Every number of the array is finite. -/
def _root_.CL.Arr.NoInf (a : Arr K) : Prop := ∀ p : Ix, p.Inside a.d0 a.d1 a.d2 a.d3 → (a.get p.i p.c p.o p.d).NoInf

theorem nanToNum_rep {s : Coo K} {a : Arr K} (h : Rep s a) (hf : s.fill = .nan ∨ s.fill = .fin 0) (hi : Arr.NoInf a) :
    Rep s.nanToNum (a.map Num.nanToNum) ∧ s.nanToNum.fill = .fin 0 ∧ ∀ e ∈ s.nanToNum.cells, e.2 ≠ .nan := by
  have hst : ∀ p, s.nanToNum.stored p = (s.stored p).map fun x => if x.isNan then .fin 0 else x := by
    intro p
    unfold stored nanToNum
    rw [List.find?_map]
    cases hh : s.cells.find? ((fun e => decide (e.1 = p)) ∘ fun e => (e.1, if e.2.isNan then .fin 0 else e.2)) with
    | none =>
      have : s.cells.find? (fun e => decide (e.1 = p)) = none := hh
      rw [this]; rfl
    | some e =>
      have : s.cells.find? (fun e => decide (e.1 = p)) = some e := hh
      rw [this]; rfl
  refine ⟨⟨h.d0, h.d1, h.d2, h.d3, ?_, ?_, ?_⟩, rfl, ?_⟩
  · have : s.nanToNum.cells.map (·.1) = s.cells.map (·.1) := by simp [nanToNum, Function.comp_def]
    rw [this]; exact h.nodup
  · intro e he
    obtain ⟨e', he', rfl⟩ := List.mem_map.1 he
    exact h.inside e' he'
  · intro p hp
    have h1 := h.cell p hp
    have h2 := hi p hp
    show s.nanToNum.get p = (a.get p.i p.c p.o p.d).nanToNum
    rw [← h1] at h2 ⊢
    unfold get at h2 ⊢
    rw [hst]
    cases hs : s.stored p with
    | none =>
      simp only [Option.map_none, Option.getD_none]
      rcases hf with e | e <;> rw [e] <;> rfl
    | some x =>
      rw [hs] at h2
      simp only [Option.map_some, Option.getD_some] at h2 ⊢
      rcases Num.noInf_cases h2 with rfl | ⟨v, rfl⟩ <;> rfl
  · intro e he
    obtain ⟨e', he', rfl⟩ := List.mem_map.1 he
    dsimp only
    split_ifs with hn
    · simp
    · intro h0
      rw [h0] at hn
      exact hn rfl

theorem numToNan_holds {s : Coo K} {a : Arr K} (h : Rep s a) (hf : s.fill = .nan ∨ s.fill = .fin 0)
    (hn : ∀ e ∈ s.cells, e.2 ≠ .nan) : Holds s.numToNan (a.map Num.numToNan) := by
  have hb : (s.fill.eqb 0 || s.fill.isNan) = true := by
    rcases hf with e | e <;> rw [e] <;> simp [Num.eqb, Num.isNan]
  have e : s.numToNan = { s with
      cells := s.cells.filter fun e => !e.2.eqb 0
      fill := .nan } := by
    unfold numToNan numToValue
    rw [if_pos hb]
  rw [e]
  have hnd : ((s.cells.filter fun e => !e.2.eqb 0).map (·.1)).Nodup :=
    h.nodup.sublist (List.filter_sublist.map _)
  refine ⟨⟨h.d0, h.d1, h.d2, h.d3, hnd, fun e he => h.inside e (List.mem_filter.1 he).1, ?_⟩, .inl rfl,
    fun e he => hn e (List.mem_filter.1 he).1⟩
  intro p hp
  have h1 := h.cell p hp
  show get _ p = (a.get p.i p.c p.o p.d).numToNan
  rw [← h1]
  unfold get
  cases hs : stored (s := { s with
      cells := s.cells.filter fun e => !e.2.eqb 0
      fill := .nan }) p with
  | some x =>
    have hm := List.mem_filter.1 (stored_mem hs)
    have := mem_stored h.nodup hm.1
    simp only at this
    rw [this]
    have h0 := hm.2
    simp only [Option.getD_some] at h0 ⊢
    cases x with
    | fin v =>
      have : v ≠ 0 := by
        rintro rfl
        simp [Num.eqb] at h0
      rw [Num.numToNan_fin_of_ne this]
    | _ => rfl
  | none =>
    simp only [Option.getD_none]
    cases hs' : s.stored p with
    | none =>
      simp only [Option.getD_none]
      rcases hf with e | e <;> rw [e] <;> simp
    | some x =>
      simp only [Option.getD_some]
      have hm := stored_mem hs'
      by_cases h0 : x.eqb 0 = true
      · have : x = .fin 0 := by
          have : same x 0 = true := by simp [same, h0]
          exact same_eq this
        rw [this]; simp
      · exfalso
        have hm' : (p, x) ∈ s.cells.filter fun e => !e.2.eqb 0 := List.mem_filter.2 ⟨hm, by simpa using h0⟩
        have := mem_stored (s := { s with
          cells := s.cells.filter fun e => !e.2.eqb 0
          fill := .nan }) hnd hm'
        rw [hs] at this
        cases this

/-- Arithmetic. -/
theorem zip_rep (f : Num K → Num K → Num K) {s u : Coo K} {a b : Arr K} (hs : Rep s a) (hu : Rep u b) :
    match Arr.zip f a b with
    | .error e => s.zip f u = .error e
    | .ok r => ∃ v, s.zip f u = .ok v ∧ Rep v r ∧ v.fill = f s.fill u.fill ∧ ∀ e ∈ v.cells, same e.2 v.fill = false := by
  unfold Arr.zip zip
  rw [hs.d0, hs.d1, hs.d2, hs.d3, hu.d0, hu.d1, hu.d2, hu.d3]
  cases e0 : Arr.bdim a.d0 b.d0 with
  | none => rfl
  | some n0 =>
  cases e1 : Arr.bdim a.d1 b.d1 with
  | none => rfl
  | some n1 =>
  cases e2 : Arr.bdim a.d2 b.d2 with
  | none => rfl
  | some n2 =>
  cases e3 : Arr.bdim a.d3 b.d3 with
  | none => rfl
  | some n3 =>
  simp only
  refine ⟨_, rfl, rep_build rfl rfl rfl rfl ?_, rfl, fun e he => (mem_build.1 he).2.2⟩
  intro p hp
  have key : ∀ m n r i, Arr.bdim m n = some r → i < r → Arr.bix m r i < m ∧ Arr.bix n r i < n := by
    intro m n r i h hi
    unfold Arr.bdim at h
    unfold Arr.bix
    split_ifs at h <;> split_ifs <;> injection h <;> omega
  have k0 := key _ _ _ _ e0 hp.1
  have k1 := key _ _ _ _ e1 hp.2.1
  have k2 := key _ _ _ _ e2 hp.2.2.1
  have k3 := key _ _ _ _ e3 hp.2.2.2
  have ha := hs.cell ⟨Arr.bix a.d0 n0 p.i, Arr.bix a.d1 n1 p.c, Arr.bix a.d2 n2 p.o, Arr.bix a.d3 n3 p.d⟩
    ⟨k0.1, k1.1, k2.1, k3.1⟩
  have hb := hu.cell ⟨Arr.bix b.d0 n0 p.i, Arr.bix b.d1 n1 p.c, Arr.bix b.d2 n2 p.o, Arr.bix b.d3 n3 p.d⟩
    ⟨k0.2, k1.2, k2.2, k3.2⟩
  simp only at ha hb ⊢
  rw [← ha, ← hb]
  split_ifs with hc
  · rfl
  · simp only [Bool.or_eq_true, not_or, Bool.not_eq_true, Option.isSome_eq_false_iff, Option.isNone_iff_eq_none] at hc
    unfold get
    rw [hc.1, hc.2]
    rfl

theorem set_at (ax : Tri.Axis) (p : Ix) : p.set ax (p.at' ax) = p := by cases ax <;> rfl
theorem at_set (ax : Tri.Axis) (p : Ix) (j : Nat) : (p.set ax j).at' ax = j := by cases ax <;> rfl
theorem set_set (ax : Tri.Axis) (p : Ix) (j k : Nat) : (p.set ax j).set ax k = p.set ax k := by cases ax <;> rfl

/-- The sum of the stored cells on a line. -/
theorem sum_line (ax : Tri.Axis) (n : Nat) (p : Ix) (hp : p.at' ax = 0) : ∀ l : List (Ix × Num K),
    (l.map (·.1)).Nodup → (∀ e ∈ l, e.1.at' ax < n) →
    ((l.filter fun e => e.1.set ax 0 = p).map (·.2)).sum =
      ∑ j ∈ Finset.range n, ((l.find? fun e => e.1 = p.set ax j).map (·.2)).getD (.fin 0) := by
  intro l
  induction l with
  | nil => intro _ _; simp [← Num.zero_def]
  | cons e l ih =>
    intro hn hi
    rw [List.map_cons, List.nodup_cons] at hn
    have ih := ih hn.2 fun e he => hi e (List.mem_cons_of_mem _ he)
    have hz : ∀ j, e.1 = p.set ax j → l.find? (fun e => e.1 = p.set ax j) = none := by
      intro j hj
      rw [List.find?_eq_none]
      intro e' he' h'
      simp only [decide_eq_true_eq] at h'
      exact hn.1 (List.mem_map.2 ⟨e', he', h'.trans hj.symm⟩)
    by_cases he : e.1.set ax 0 = p
    · rw [List.filter_cons_of_pos (by simpa using he), List.map_cons, List.sum_cons, ih]
      have hj : e.1 = p.set ax (e.1.at' ax) := by rw [← he, set_set, set_at]
      have : ∀ j ∈ Finset.range n, (((e :: l).find? fun e => e.1 = p.set ax j).map (·.2)).getD (.fin 0) =
          (if j = e.1.at' ax then e.2 else 0) + ((l.find? fun e => e.1 = p.set ax j).map (·.2)).getD (.fin 0) := by
        intro j _
        by_cases h : j = e.1.at' ax
        · rw [if_pos h, List.find?_cons_of_pos (by simpa [h] using hj)]
          have := hz j (by rw [h]; exact hj)
          rw [this]
          simp [← Num.zero_def]
        · rw [if_neg h, List.find?_cons_of_neg, zero_add]
          simp only [decide_eq_true_eq]
          intro h'
          apply h
          rw [h', at_set]
      rw [Finset.sum_congr rfl this, Finset.sum_add_distrib, Finset.sum_ite_eq' _ _ fun _ => e.2,
        if_pos (Finset.mem_range.2 (hi e (List.mem_cons_self)))]
    · rw [List.filter_cons_of_neg (by simpa using he), ih]
      refine Finset.sum_congr rfl fun j _ => ?_
      rw [List.find?_cons_of_neg]
      simp only [decide_eq_true_eq]
      intro h
      apply he
      rw [h, set_set]
      have := set_at ax p
      rw [hp] at this
      exact this

/-- The number of cells along an axis. -/
def axisLen (a : Arr K) : Tri.Axis → Nat
  | .index => a.d0
  | .columns => a.d1
  | .origin => a.d2
  | .development => a.d3

theorem sum_rep {s : Coo K} {a : Arr K} (h : Rep s a) (hf : s.fill = .fin 0) (hn : ∀ e ∈ s.cells, e.2 ≠ .nan)
    (ax : Tri.Axis) : Rep (s.sum ax) (a.nansum ax) ∧ (s.sum ax).fill = .fin 0 ∧
      ∀ e ∈ (s.sum ax).cells, same e.2 (.fin 0) = false := by
  refine ⟨?_, rfl, fun e he => by simp only [sum] at he; exact (mem_build.1 he).2.2⟩
  have hcell : ∀ p, s.get p = ((s.cells.find? fun e => e.1 = p).map (·.2)).getD (.fin 0) := by
    intro p; unfold get stored; rw [hf]
  have hat : ∀ e ∈ s.cells, e.1.at' ax < axisLen a ax := by
    intro e he
    have := h.inside e he
    cases ax
    exacts [this.1, this.2.1, this.2.2.1, this.2.2.2]
  have hnan : ∀ p, (s.get p).nan0 = s.get p := by
    intro p
    unfold get
    cases hs : s.stored p with
    | none => rw [Option.getD_none, hf]; rfl
    | some x =>
      have := hn _ (stored_mem hs)
      rw [Option.getD_some]
      cases x <;> first | rfl | exact absurd rfl this
  cases ax with
  | index =>
    refine rep_build (a := a.nansum .index) rfl h.d1 h.d2 h.d3 fun p hp => ?_
    have h0 : p.i = 0 := by have := hp.1; simp only [Arr.nansum] at this; omega
    rw [Option.getD_some, sum_line .index _ p h0 _ h.nodup hat]
    refine Finset.sum_congr rfl fun j hj => ?_
    rw [← hcell, ← hnan]
    congr 1
    exact h.cell ⟨j, p.c, p.o, p.d⟩ ⟨Finset.mem_range.1 hj, hp.2⟩
  | columns =>
    refine rep_build (a := a.nansum .columns) h.d0 rfl h.d2 h.d3 fun p hp => ?_
    have h0 : p.c = 0 := by have := hp.2.1; simp only [Arr.nansum] at this; omega
    rw [Option.getD_some, sum_line .columns _ p h0 _ h.nodup hat]
    refine Finset.sum_congr rfl fun j hj => ?_
    rw [← hcell, ← hnan]
    congr 1
    exact h.cell ⟨p.i, j, p.o, p.d⟩ ⟨hp.1, Finset.mem_range.1 hj, hp.2.2⟩
  | origin =>
    refine rep_build (a := a.nansum .origin) h.d0 h.d1 rfl h.d3 fun p hp => ?_
    have h0 : p.o = 0 := by have := hp.2.2.1; simp only [Arr.nansum] at this; omega
    rw [Option.getD_some, sum_line .origin _ p h0 _ h.nodup hat]
    refine Finset.sum_congr rfl fun j hj => ?_
    rw [← hcell, ← hnan]
    congr 1
    exact h.cell ⟨p.i, p.c, j, p.d⟩ ⟨hp.1, hp.2.1, Finset.mem_range.1 hj, hp.2.2.2⟩
  | development =>
    refine rep_build (a := a.nansum .development) h.d0 h.d1 h.d2 rfl fun p hp => ?_
    have h0 : p.d = 0 := by have := hp.2.2.2; simp only [Arr.nansum] at this; omega
    rw [Option.getD_some, sum_line .development _ p h0 _ h.nodup hat]
    refine Finset.sum_congr rfl fun j hj => ?_
    rw [← hcell, ← hnan]
    congr 1
    exact h.cell ⟨p.i, p.c, p.o, j⟩ ⟨hp.1, hp.2.1, hp.2.2.1, Finset.mem_range.1 hj⟩

/-- The stored cells alone. -/
theorem zeros_rep {s : Coo K} {a : Arr K} (h : Holds s a) :
    Rep { s with fill := .fin 0 } (a.map Num.nan0) := by
  refine ⟨h.d0, h.d1, h.d2, h.d3, h.nodup, h.inside, fun p hp => ?_⟩
  show _ = (a.get p.i p.c p.o p.d).nan0
  rw [← h.cell p hp]
  have e : stored { s with fill := .fin 0 } p = s.stored p := rfl
  unfold get
  rw [e]
  cases hs : s.stored p with
  | none =>
    simp only [Option.getD_none]
    rcases h.fill with e | e <;> rw [e] <;> rfl
  | some x =>
    have := h.noNan _ (stored_mem hs)
    simp only [Option.getD_some]
    cases x <;> first | rfl | exact absurd rfl this

theorem nansum_nan0 (ax : Tri.Axis) (a : Arr K) : (a.map Num.nan0).nansum ax = a.nansum ax := by
  have h : ∀ x : Num K, x.nan0.nan0 = x.nan0 := fun x => by cases x <;> rfl
  cases ax <;> simp [Arr.nansum, Arr.map, h]

theorem nansum_finite {a : Arr K} (h : Arr.NoInf a) (ax : Tri.Axis) : ∀ p : Ix,
    p.Inside (a.nansum ax).d0 (a.nansum ax).d1 (a.nansum ax).d2 (a.nansum ax).d3 →
    ∃ v, (a.nansum ax).get p.i p.c p.o p.d = .fin v := by
  intro p hp
  have key : ∀ (n : Nat) (f : Nat → Num K), (∀ j < n, (f j).NoInf) →
      ∃ v, ∑ j ∈ Finset.range n, (f j).nan0 = .fin v := by
    intro n f hf
    refine ⟨∑ j ∈ Finset.range n, (f j).amt, ?_⟩
    rw [Finset.sum_congr rfl fun j hj => Num.nan0_eq (hf j (Finset.mem_range.1 hj)), Num.sum_fin]
  cases ax with
  | index => exact key _ (fun j => a.get j p.c p.o p.d) fun j hj => h ⟨j, p.c, p.o, p.d⟩ ⟨hj, hp.2⟩
  | columns => exact key _ (fun j => a.get p.i j p.o p.d) fun j hj => h ⟨p.i, j, p.o, p.d⟩ ⟨hp.1, hj, hp.2.2⟩
  | origin => exact key _ (fun j => a.get p.i p.c j p.d) fun j hj => h ⟨p.i, p.c, j, p.d⟩ ⟨hp.1, hp.2.1, hj, hp.2.2.2⟩
  | development =>
    exact key _ (fun j => a.get p.i p.c p.o j) fun j hj => h ⟨p.i, p.c, p.o, j⟩ ⟨hp.1, hp.2.1, hp.2.2.1, hj⟩

theorem map_rep (f : Num K → Num K) {s : Coo K} {a : Arr K} (h : Rep s a) :
    Rep (s.map f) (a.map f) ∧ ∀ e ∈ (s.map f).cells, ∃ e' ∈ s.cells, e.2 = f e'.2 := by
  have hnd : ((s.map f).cells.map (·.1)).Nodup := by
    have : (s.cells.map fun e => (e.1, f e.2)).map (·.1) = s.cells.map (·.1) := by simp [Function.comp_def]
    refine List.Nodup.sublist (List.Sublist.map _ List.filter_sublist) ?_
    rw [this]; exact h.nodup
  have hmem : ∀ e ∈ (s.map f).cells, ∃ e' ∈ s.cells, e = (e'.1, f e'.2) ∧ same e.2 (f s.fill) = false := by
    intro e he
    obtain ⟨he, h0⟩ := List.mem_filter.1 he
    obtain ⟨e', he', rfl⟩ := List.mem_map.1 he
    exact ⟨e', he', rfl, by simpa using h0⟩
  refine ⟨⟨h.d0, h.d1, h.d2, h.d3, hnd, ?_, ?_⟩, ?_⟩
  · intro e he
    obtain ⟨e', he', rfl, -⟩ := hmem e he
    exact h.inside e' he'
  · intro p hp
    show _ = f (a.get p.i p.c p.o p.d)
    rw [← h.cell p hp]
    unfold get
    cases hs : (s.map f).stored p with
    | some x =>
      obtain ⟨e', he', e, -⟩ := hmem _ (stored_mem hs)
      have := mem_stored h.nodup he'
      injection e with e1 e2
      rw [e1, this, e2]; rfl
    | none =>
      cases hs' : s.stored p with
      | none => rfl
      | some x =>
        rw [Option.getD_none, Option.getD_some]
        by_cases hx : same (f x) (f s.fill) = true
        · exact (same_eq hx).symm
        · exfalso
          have hm : (p, f x) ∈ (s.map f).cells :=
            List.mem_filter.2 ⟨List.mem_map.2 ⟨_, stored_mem hs', rfl⟩, by simpa using hx⟩
          have := mem_stored hnd hm
          rw [hs] at this
          cases this
  · intro e he
    obtain ⟨e', he', rfl, -⟩ := hmem e he
    exact ⟨e', he', rfl⟩

theorem upto_rep {s : Coo K} {a : Arr K} (h : Rep s a) (n : Nat) :
    Rep (s.upto n) { a with d3 := min n a.d3 } := by
  have hnd : ((s.upto n).cells.map (·.1)).Nodup := List.Nodup.sublist (List.Sublist.map _ List.filter_sublist) h.nodup
  refine ⟨h.d0, h.d1, h.d2, ?_, hnd, ?_, ?_⟩
  · show min n s.d3 = min n a.d3
    rw [h.d3]
  · intro e he
    obtain ⟨h1, h2⟩ := List.mem_filter.1 he
    have := h.inside e h1
    refine ⟨this.1, this.2.1, this.2.2.1, ?_⟩
    simp only [decide_eq_true_eq] at h2
    exact lt_min h2 this.2.2.2
  · intro p hp
    have hp' : p.Inside a.d0 a.d1 a.d2 a.d3 := ⟨hp.1, hp.2.1, hp.2.2.1, lt_of_lt_of_le hp.2.2.2 (min_le_right _ _)⟩
    have hd : p.d < n := lt_of_lt_of_le hp.2.2.2 (min_le_left _ _)
    rw [← h.cell p hp']
    unfold get
    have : (s.upto n).stored p = s.stored p := by
      cases hs : s.stored p with
      | some x =>
        exact (stored_iff hnd).2 (List.mem_filter.2 ⟨stored_mem hs, by simpa using hd⟩)
      | none =>
        cases hs' : (s.upto n).stored p with
        | none => rfl
        | some x =>
          have := (stored_iff h.nodup).2 (List.mem_filter.1 (stored_mem hs')).1
          rw [hs] at this
          cases this
    rw [this]; rfl

theorem columns_rep {d0 d1 d2 n : Nat} {f : Nat → Coo K} {A : Nat → Arr K}
    (h : ∀ j < n, Rep (f j) (A j) ∧ (A j).d0 = d0 ∧ (A j).d1 = d1 ∧ (A j).d2 = d2 ∧ (A j).d3 = 1 ∧
      (f j).fill = .fin 0) :
    Rep (columns d0 d1 d2 n f) ⟨d0, d1, d2, n, fun i c o d => (A d).get i c o 0⟩ := by
  have hmem : ∀ p x, (p, x) ∈ (columns d0 d1 d2 n f).cells ↔
      p.d < n ∧ (p.set .development 0, x) ∈ (f p.d).cells := by
    intro p x
    simp only [columns, List.mem_flatMap, List.mem_range, List.mem_map]
    constructor
    · rintro ⟨j, hj, e, he, h1⟩
      injection h1 with h1 h2
      subst h1 h2
      have h0 : e.1.d = 0 := by
        have := ((h j hj).1.inside e he).2.2.2
        rw [(h j hj).2.2.2.2.1] at this
        omega
      refine ⟨hj, ?_⟩
      have : ((e.1.set .development j).set .development 0) = e.1 := by
        rw [set_set]
        conv_rhs => rw [← set_at .development e.1]
        show _ = e.1.set .development e.1.d
        rw [h0]
      rw [this]
      exact he
    · rintro ⟨hd, he⟩
      refine ⟨p.d, hd, _, he, ?_⟩
      rw [set_set]
      exact Prod.ext (set_at .development p) rfl
  have hnd : ((columns d0 d1 d2 n f).cells.map (·.1)).Nodup := by
    show (((List.range n).flatMap fun j => (f j).cells.map fun e => (e.1.set .development j, e.2)).map (·.1)).Nodup
    rw [List.map_flatMap]
    refine List.nodup_flatMap.2 ⟨fun j hj => ?_, ?_⟩
    · rw [List.mem_range] at hj
      rw [List.map_map]
      refine List.Nodup.map_on ?_ (List.Nodup.of_map _ (h j hj).1.nodup)
      intro e he e' he' h1
      have h0 : ∀ e ∈ (f j).cells, e.1.d = 0 := by
        intro e he
        have := ((h j hj).1.inside e he).2.2.2
        rw [(h j hj).2.2.2.2.1] at this
        omega
      refine List.inj_on_of_nodup_map (h j hj).1.nodup he he' ?_
      have h2 := congrArg (fun p : Ix => p.set .development 0) h1
      simp only [Function.comp, set_set] at h2
      have e1 := set_at .development e.1
      have e2 := set_at .development e'.1
      have k1 : e.1.at' .development = 0 := h0 e he
      have k2 : e'.1.at' .development = 0 := h0 e' he'
      rw [k1] at e1
      rw [k2] at e2
      rw [← e1, ← e2, h2]
    · refine List.Pairwise.imp_of_mem (fun {a b} _ _ hab => ?_) List.nodup_range
      rw [Function.onFun, List.disjoint_left]
      intro p hp hq
      simp only [List.map_map, List.mem_map, Function.comp] at hp hq
      obtain ⟨e, -, rfl⟩ := hp
      obtain ⟨e', -, h1⟩ := hq
      have := congrArg (fun p : Ix => p.d) h1
      exact hab this.symm
  refine ⟨rfl, rfl, rfl, rfl, hnd, ?_, ?_⟩
  · rintro ⟨p, x⟩ he
    obtain ⟨hd, he⟩ := (hmem p x).1 he
    obtain ⟨h1, a0, a1, a2, a3, -⟩ := h p.d hd
    have := h1.inside _ he
    rw [a0, a1, a2] at this
    exact ⟨this.1, this.2.1, this.2.2.1, hd⟩
  · intro p hp
    obtain ⟨h1, a0, a1, a2, a3, hf⟩ := h p.d hp.2.2.2
    have := h1.cell (p.set .development 0) ⟨by rw [a0]; exact hp.1, by rw [a1]; exact hp.2.1,
      by rw [a2]; exact hp.2.2.1, by rw [a3]; exact Nat.zero_lt_one⟩
    show _ = (A p.d).get p.i p.c p.o 0
    have this' : (f p.d).get (p.set .development 0) = (A p.d).get p.i p.c p.o 0 := this
    rw [← this']
    unfold get
    have e : (columns d0 d1 d2 n f).stored p = (f p.d).stored (p.set .development 0) := by
      cases hs : (f p.d).stored (p.set .development 0) with
      | some x => exact (stored_iff hnd).2 ((hmem p x).2 ⟨hp.2.2.2, stored_mem hs⟩)
      | none =>
        cases hs' : (columns d0 d1 d2 n f).stored p with
        | none => rfl
        | some x =>
          have := (stored_iff h1.nodup).2 ((hmem p x).1 (stored_mem hs')).2
          rw [hs] at this
          cases this
    rw [e, hf]
    rfl

theorem Rep.congr {s : Coo K} {a b : Arr K} (h : Rep s a) (h0 : a.d0 = b.d0) (h1 : a.d1 = b.d1)
    (h2 : a.d2 = b.d2) (h3 : a.d3 = b.d3)
    (hg : ∀ p : Ix, p.Inside b.d0 b.d1 b.d2 b.d3 → a.get p.i p.c p.o p.d = b.get p.i p.c p.o p.d) : Rep s b := by
  refine ⟨h.d0.trans h0, h.d1.trans h1, h.d2.trans h2, h.d3.trans h3, h.nodup, ?_, ?_⟩
  · intro e he
    have := h.inside e he
    rw [h0, h1, h2, h3] at this
    exact this
  · intro p hp
    rw [← hg p hp]
    refine h.cell p ?_
    rw [h0, h1, h2, h3]
    exact hp

theorem Rep.noNan {s : Coo K} {a : Arr K} (h : Rep s a)
    (hg : ∀ p : Ix, p.Inside a.d0 a.d1 a.d2 a.d3 → a.get p.i p.c p.o p.d ≠ .nan) : ∀ e ∈ s.cells, e.2 ≠ .nan := by
  intro e he
  rw [h.stored_eq he]
  exact hg e.1 (h.inside e he)

theorem bdim_one (n : Nat) : Arr.bdim n 1 = some n := by
  unfold Arr.bdim
  split_ifs <;> first | rfl | omega

theorem bdim_self (n : Nat) : Arr.bdim n n = some n := if_pos rfl

/-- Multiplication by a plane of the origins and ages. -/
theorem plane_zip (a : Arr K) {d3 : Nat} (hd : d3 = a.d3 ∨ d3 = 1) (g : Nat → Nat → Num K) :
    ∃ r, Arr.zip (· * ·) a ⟨1, 1, a.d2, d3, fun _ _ o d => g o d⟩ = .ok r ∧ r.d0 = a.d0 ∧ r.d1 = a.d1 ∧
      r.d2 = a.d2 ∧ r.d3 = a.d3 ∧ ∀ p : Ix, p.Inside a.d0 a.d1 a.d2 a.d3 →
        r.get p.i p.c p.o p.d = a.get p.i p.c p.o p.d * g p.o (Arr.bix d3 a.d3 p.d) := by
  unfold Arr.zip
  have h3 : Arr.bdim a.d3 d3 = some a.d3 := by
    rcases hd with e | e <;> rw [e]
    · exact bdim_self _
    · exact bdim_one _
  simp only [bdim_one, bdim_self, h3]
  refine ⟨_, rfl, rfl, rfl, rfl, rfl, fun p hp => ?_⟩
  simp only [Arr.bix_self]

theorem zip_array {s : Coo K} {a : Arr K} (h : Holds s a) (b : Arr K) (f : Num K → Num K → Num K)
    (h1 : f .nan .nan = .nan) (h2 : f (.fin 0) .nan = .nan) :
    match Arr.zip f a b with
    | .error e => s.zip f (array b) = .error e
    | .ok r => ∃ v, s.zip f (array b) = .ok v ∧ Holds v r := by
  have := zip_rep f h.toRep (array_holds b).toRep
  cases e : Arr.zip f a b with
  | error e' => rw [e] at this; exact this
  | ok r =>
    rw [e] at this
    obtain ⟨v, q1, q2, q3, q4⟩ := this
    have hv : v.fill = .nan := by
      rw [q3]
      show f s.fill .nan = _
      rcases h.fill with e | e <;> rw [e] <;> assumption
    refine ⟨v, q1, ⟨q2, .inl hv, fun e he h0 => ?_⟩⟩
    have := q4 e he
    rw [h0, hv, same_self] at this
    cases this

theorem nanToNum_fin {a : Arr K} (p : Ix) : ∃ v, (a.map Num.nanToNum).get p.i p.c p.o p.d = .fin v := by
  show ∃ v, (a.get p.i p.c p.o p.d).nanToNum = .fin v
  cases a.get p.i p.c p.o p.d <;> exact ⟨_, rfl⟩

end Coo

namespace Tri
open Coo
variable {K : Type} [Field K] [LinearOrder K] [IsStrictOrderedRing K]

theorem nanTri_num (t : Tri K) (o d : Nat) : t.nanTri o d = 1 ∨ t.nanTri o d = .nan := by
  rcases t.nanTri_eq o d with h | h
  · exact .inl h
  · exact .inr h.1

theorem nanTri_congr {t u : Tri K} (h2 : t.values.d2 = u.values.d2) (h3 : t.values.d3 = u.values.d3)
    (hv : t.valuation = u.valuation) (hd : t.vd = u.vd) : t.nanTri = u.nanTri := by
  funext o d
  unfold nanTri
  rw [h2, h3, hv, hd]

/-- The end of sums and differences. -/
theorem cleanup_holds (t : Tri K) {v : Coo K} {r : Arr K} (h : Rep v r) (hf : v.fill = .fin 0)
    (hn : ∀ p : Ix, p.Inside r.d0 r.d1 r.d2 r.d3 → ∃ x, r.get p.i p.c p.o p.d = .fin x) :
    ∃ w, cleanupSparse { t with values := v.todense } v = .ok w ∧ Holds w (cleanup { t with values := r }).values := by
  set u : Tri K := { t with values := v.todense } with hu
  have ht : u.nanTri = ({ t with values := r } : Tri K).nanTri :=
    nanTri_congr h.d2 h.d3 rfl rfl
  have hpl : u.nanPlane = ⟨1, 1, r.d2, r.d3, fun _ _ o d => u.nanTri o d⟩ := by
    show (⟨1, 1, v.d2, v.d3, _⟩ : Arr K) = _
    rw [h.d2, h.d3]
  have hfin : Arr.NoInf u.nanPlane := by
    intro p _
    show (u.nanTri p.o p.d).NoInf
    rcases u.nanTri_num p.o p.d with e | e <;> rw [e] <;> simp [Num.NoInf]
  obtain ⟨k1, k2, -⟩ := nanToNum_rep (array_holds u.nanPlane).toRep (.inl rfl) hfin
  obtain ⟨r', e1, e2, e3, e4, e5, e6⟩ := plane_zip r (.inl rfl) fun o d => (u.nanTri o d).nanToNum
  have hz := zip_rep (· * ·) h k1
  have hmap : u.nanPlane.map Num.nanToNum = ⟨1, 1, r.d2, r.d3, fun _ _ o d => (u.nanTri o d).nanToNum⟩ := by
    rw [hpl]; rfl
  rw [hmap, e1] at hz
  obtain ⟨w, q1, q2, q3, -⟩ := hz
  rw [hf, k2] at q3
  have hw : w.fill = .nan ∨ w.fill = .fin 0 := .inr (by rw [q3, Num.fin_mul_fin, mul_zero])
  have hcell : ∀ p : Ix, p.Inside r'.d0 r'.d1 r'.d2 r'.d3 →
      r'.get p.i p.c p.o p.d = r.get p.i p.c p.o p.d * (u.nanTri p.o p.d).nanToNum := by
    intro p hp
    rw [e2, e3, e4, e5] at hp
    rw [e6 p hp, Arr.bix_self]
  have hno := q2.noNan fun p hp => by
    rw [hcell p hp]
    obtain ⟨x, hx⟩ := hn p (by rw [e2, e3, e4, e5] at hp; exact hp)
    rw [hx]
    rcases u.nanTri_num p.o p.d with e | e <;> rw [e] <;> simp [Num.nanToNum]
  have := numToNan_holds q2 hw hno
  refine ⟨w.numToNan, ?_, ⟨this.toRep.congr e2 e3 e4 e5 ?_, this.fill, this.noNan⟩⟩
  · unfold cleanupSparse
    simp only [bind, Except.bind]
    rw [q1]
  · intro p hp
    show (r'.get p.i p.c p.o p.d).numToNan = (r.get p.i p.c p.o p.d * (({ t with values := r } : Tri K).nanTri p.o p.d).nanToNum).numToNan
    rw [hcell p (by rw [e2, e3, e4, e5]; exact hp), ht]

/-- Sums and differences. -/
theorem addSparse_holds (t : Tri K) {s : Coo K} (h : Holds s t.values) (hi : Arr.NoInf t.values) (b : Arr K)
    (hb : Arr.NoInf b) (f : Num K → Num K → Num K) (g : K → K → K) (hf : ∀ x y, f (.fin x) (.fin y) = .fin (g x y))
    (h0 : g 0 0 = 0) :
    match (do
      let u ← t.zipArr (fun x y => f x.nanToNum y.nanToNum) b
      .ok u.cleanup : Except Err (Tri K)) with
    | .error e => (do
        let v ← s.nanToNum.zip f (Coo.array b).nanToNum
        cleanupSparse { t with values := v.todense } v : Except Err (Coo K)) = .error e
    | .ok u => ∃ w, (do
        let v ← s.nanToNum.zip f (Coo.array b).nanToNum
        cleanupSparse { t with values := v.todense } v : Except Err (Coo K)) = .ok w ∧ Holds w u.values := by
  obtain ⟨k1, k2, -⟩ := nanToNum_rep h.toRep h.fill hi
  obtain ⟨l1, l2, -⟩ := nanToNum_rep (array_holds b).toRep (.inl rfl) hb
  have hz := zip_rep f k1 l1
  have e0 : Arr.zip f (t.values.map Num.nanToNum) (b.map Num.nanToNum) =
      Arr.zip (fun x y => f x.nanToNum y.nanToNum) t.values b := rfl
  rw [e0] at hz
  unfold zipArr
  simp only [bind, Except.bind]
  cases e : Arr.zip (fun x y => f x.nanToNum y.nanToNum) t.values b with
  | error e' => rw [e] at hz; simp only at hz ⊢; rw [hz]
  | ok r =>
    rw [e] at hz
    obtain ⟨v, q1, q2, q3, -⟩ := hz
    simp only at q1 ⊢
    rw [q1]
    simp only
    refine cleanup_holds t q2 (by rw [q3, k2, l2, hf, h0]) fun p hp => ?_
    have hr : ∃ x y, r.get p.i p.c p.o p.d = f (Num.nanToNum x) (Num.nanToNum y) := by
      unfold Arr.zip at e
      split at e
      · injection e with e
        rw [← e]
        exact ⟨_, _, rfl⟩
      · cases e
    obtain ⟨x, y, hr⟩ := hr
    rw [hr]
    have : ∀ x : Num K, ∃ v, x.nanToNum = .fin v := fun x => by cases x <;> exact ⟨_, rfl⟩
    obtain ⟨a, ha⟩ := this x
    obtain ⟨b, hb⟩ := this y
    rw [ha, hb, hf]
    exact ⟨_, rfl⟩

/-- Sums along an axis. -/
theorem sumSparse_holds {a : Arr K} {s : Coo K} (h : Holds s a) (hi : Arr.NoInf a) (ax : Axis) :
    Holds (s.nansum ax).numToNan ((a.nansum ax).map Num.numToNan) := by
  obtain ⟨k1, k2, -⟩ := sum_rep (zeros_rep h) rfl h.noNan ax
  rw [nansum_nan0] at k1
  refine numToNan_holds k1 (.inr k2) (k1.noNan fun p hp => ?_)
  obtain ⟨v, hv⟩ := nansum_finite hi ax p hp
  rw [hv]
  simp

theorem npow_fin (x : K) (n : Nat) : ∃ v, (Num.fin x).npow n = .fin v := by
  induction n with
  | zero => exact ⟨1, rfl⟩
  | succ n ih =>
    obtain ⟨v, hv⟩ := ih
    exact ⟨v * x, by rw [Num.npow, hv, Num.fin_mul_fin]⟩

theorem npow_zero_fin {n : Nat} (h : n ≠ 0) : (Num.fin (0 : K)).npow n = .fin 0 := by
  obtain ⟨m, rfl⟩ := Nat.exists_eq_succ_of_ne_zero h
  obtain ⟨v, hv⟩ := npow_fin (0 : K) m
  rw [Num.npow, hv, Num.fin_mul_fin, mul_zero]

/-- Powers. -/
theorem powSparse_holds {a : Arr K} {s : Coo K} (h : Holds s a) (hi : Arr.NoInf a) {n : Nat} (hn : n ≠ 0) :
    Holds (s.nanToNum.map (·.npow n)) (a.map fun x => x.nanToNum.npow n) := by
  obtain ⟨k1, k2, -⟩ := nanToNum_rep h.toRep h.fill hi
  obtain ⟨l1, -⟩ := map_rep (fun x : Num K => x.npow n) k1
  refine ⟨l1, .inr ?_, l1.noNan fun p hp => ?_⟩
  · show (s.nanToNum.fill).npow n = _
    rw [k2, npow_zero_fin hn]
  · obtain ⟨v, hv⟩ := nanToNum_fin (a := a) p
    show ((a.map Num.nanToNum).get p.i p.c p.o p.d).npow n ≠ _
    obtain ⟨w, hw⟩ := npow_fin v n
    rw [hv, hw]
    simp

/-- Negation. -/
theorem negSparse_holds {a : Arr K} {s : Coo K} (h : Holds s a) : Holds (s.map (- ·)) (a.map (- ·)) := by
  obtain ⟨l1, l2⟩ := map_rep (fun x : Num K => - x) h.toRep
  refine ⟨l1, ?_, fun e he => ?_⟩
  · show - s.fill = .nan ∨ - s.fill = .fin 0
    rcases h.fill with e | e <;> rw [e]
    · exact .inl rfl
    · exact .inr (by show Num.fin (-(0 : K)) = _; rw [neg_zero])
  · obtain ⟨e', he', e0⟩ := l2 e he
    have := h.noNan e' he'
    rw [e0]
    intro h0
    cases hx : e'.2 with
    | nan => exact this hx
    | _ => rw [hx] at h0; cases h0

/-- Cumulation. -/
theorem cumSparse_holds (t : Tri K) {s : Coo K} (h : Holds s t.values) (hi : Arr.NoInf t.values) :
    ∃ w, cumSparse t s = .ok w ∧ Holds w t.cumSumVals := by
  set a := t.values with ha
  obtain ⟨k1, k2, k3⟩ := nanToNum_rep h.toRep h.fill hi
  let A : Nat → Arr K := fun j => ⟨a.d0, a.d1, a.d2, 1, fun i c o _ =>
    ∑ k ∈ Finset.range (j + 1), ((a.get i c o k).nanToNum * (t.nanTri o j).nanToNum).nan0⟩
  have hstep : ∀ j, ∃ w, j < a.d3 → (do
      let v ← (s.nanToNum.upto (j + 1)).zip (· * ·)
        (Coo.array ⟨1, 1, t.values.d2, 1, fun _ _ o _ => t.nanTri o j⟩).nanToNum
      .ok (v.sum .development) : Except Err (Coo K)) = .ok w ∧ Rep w (A j) ∧ w.fill = .fin 0 := by
    intro j
    by_cases hj : j < a.d3
    · set g : Nat → Num K := fun o => t.nanTri o j with hg
      have hfin : Arr.NoInf (⟨1, 1, a.d2, 1, fun _ _ o _ => g o⟩ : Arr K) := by
        intro p _
        show (t.nanTri p.o j).NoInf
        rcases t.nanTri_num p.o j with e | e <;> rw [e] <;> simp [Num.NoInf]
      obtain ⟨l1, l2, -⟩ := nanToNum_rep (array_holds _).toRep (.inl rfl) hfin
      have hz := zip_rep (· * ·) (upto_rep k1 (j + 1)) l1
      obtain ⟨r, e1, e2, e3, e4, e5, e6⟩ := plane_zip { a.map Num.nanToNum with d3 := min (j + 1) (a.map Num.nanToNum).d3 }
        (d3 := 1) (.inr rfl) fun o _ => (g o).nanToNum
      have hm : (⟨1, 1, a.d2, 1, fun _ _ o _ => g o⟩ : Arr K).map Num.nanToNum =
          ⟨1, 1, a.d2, 1, fun _ _ o _ => (g o).nanToNum⟩ := rfl
      rw [hm] at hz
      have e1' : Arr.zip (· * ·) { a.map Num.nanToNum with d3 := min (j + 1) (a.map Num.nanToNum).d3 }
        ⟨1, 1, a.d2, 1, fun _ _ o _ => (g o).nanToNum⟩ = .ok r := e1
      rw [e1'] at hz
      obtain ⟨v, q1, q2, q3, -⟩ := hz
      have e5' : r.d3 = j + 1 := by rw [e5]; exact min_eq_left hj
      have hv : v.fill = .fin 0 := by
        rw [q3]
        show s.nanToNum.fill * _ = _
        rw [k2, l2, Num.fin_mul_fin, mul_zero]
      have hno := q2.noNan fun p hp => by
        rw [e2, e3, e4, e5] at hp
        rw [e6 p hp]
        show (a.get p.i p.c p.o p.d).nanToNum * _ ≠ _
        have h1 : ∀ x : Num K, ∃ v, x.nanToNum = .fin v := fun x => by cases x <;> exact ⟨_, rfl⟩
        obtain ⟨x, hx⟩ := h1 (a.get p.i p.c p.o p.d)
        obtain ⟨y, hy⟩ := h1 (g p.o)
        rw [hx, hy, Num.fin_mul_fin]
        simp
      obtain ⟨m1, m2, -⟩ := sum_rep q2 hv hno .development
      refine ⟨v.sum .development, fun _ => ⟨?_, m1.congr e2 e3 e4 rfl ?_, m2⟩⟩
      · simp only [bind, Except.bind]
        rw [q1]
      · intro p hp
        show ∑ k ∈ Finset.range r.d3, (r.get p.i p.c p.o k).nan0 = _
        rw [e5']
        refine Finset.sum_congr rfl fun k hk => ?_
        rw [Finset.mem_range] at hk
        rw [e6 ⟨p.i, p.c, p.o, k⟩ ⟨hp.1, hp.2.1, hp.2.2.1, lt_min hk (lt_of_lt_of_le hk hj)⟩]
        rfl
    · exact ⟨s, fun h => absurd h hj⟩
  choose W hW using hstep
  have hmap : (List.range s.d3).mapM (fun j => do
      let v ← (s.nanToNum.upto (j + 1)).zip (· * ·)
        (Coo.array ⟨1, 1, t.values.d2, 1, fun _ _ o _ => t.nanTri o j⟩).nanToNum
      .ok (v.sum .development) : Nat → Except Err (Coo K)) = .ok ((List.range s.d3).map W) := by
    refine mapM_ok _ W _ fun j hj => (hW j ?_).1
    rw [List.mem_range, h.d3] at hj
    exact hj
  have hget : ∀ j < a.d3, ((List.range s.d3).map W).getD j s = W j := by
    intro j hj
    rw [← h.d3] at hj
    simp [List.getD_eq_getElem?_getD, hj]
  have hc := columns_rep (d0 := s.d0) (d1 := s.d1) (d2 := s.d2) (n := s.d3)
    (f := fun j => ((List.range s.d3).map W).getD j s) (A := A) fun j hj => by
      rw [h.d3] at hj
      rw [hget j hj]
      exact ⟨(hW j hj).2.1, h.d0.symm, h.d1.symm, h.d2.symm, rfl, (hW j hj).2.2⟩
  have hA : ∀ i c o d, d < a.d3 → i < a.d0 → c < a.d1 → o < a.d2 → ∃ v, (A d).get i c o 0 = .fin v ∧
      (.fin v : Num K).numToNan = ((∑ j ∈ Finset.range (d + 1), (a.get i c o j).nanToNum) * t.nanTri o d).numToNan := by
    intro i c o d _ _ _ _
    have h1 : ∀ x : Num K, ∃ v, x.nanToNum = .fin v := fun x => by cases x <;> exact ⟨_, rfl⟩
    choose x hx using fun k => h1 (a.get i c o k)
    show ∃ v, ∑ k ∈ Finset.range (d + 1), ((a.get i c o k).nanToNum * (t.nanTri o d).nanToNum).nan0 = .fin v ∧ _
    simp only [hx, Num.sum_fin]
    rcases t.nanTri_num o d with e | e <;> rw [e]
    · refine ⟨∑ k ∈ Finset.range (d + 1), x k, ?_, ?_⟩
      · simp [Num.nanToNum, Num.nan0, Num.sum_fin]
      · rw [mul_one]
    · refine ⟨0, ?_, ?_⟩
      · have h0 : ∀ k, (Num.fin (x k) * (Num.nan : Num K).nanToNum).nan0 = .fin 0 := fun k => by
          simp [Num.nanToNum, Num.nan0]
        rw [Finset.sum_congr rfl fun k _ => h0 k, Num.sum_fin, Finset.sum_const_zero]
      · simp
  have hno := hc.noNan fun p hp => by
    simp only [h.d0, h.d1, h.d2, h.d3] at hp
    obtain ⟨v, hv, -⟩ := hA p.i p.c p.o p.d hp.2.2.2 hp.1 hp.2.1 hp.2.2.1
    show (A p.d).get p.i p.c p.o 0 ≠ _
    rw [hv]
    simp
  have := numToNan_holds hc (.inr rfl) hno
  refine ⟨_, ?_, ⟨this.toRep.congr h.d0 h.d1 h.d2 h.d3 ?_, this.fill, this.noNan⟩⟩
  · unfold cumSparse
    simp only [bind, Except.bind] at hmap ⊢
    rw [hmap]
  · intro p hp
    obtain ⟨v, hv, hv'⟩ := hA p.i p.c p.o p.d hp.2.2.2 hp.1 hp.2.1 hp.2.2.1
    show ((A p.d).get p.i p.c p.o 0).numToNan = _
    rw [hv]
    exact hv'

/-- Cumulation of a pattern without gaps. -/
theorem cumProdSparse_holds (t : Tri K) {s : Coo K} (h : Holds s t.values)
    (hi : ∀ p : Ix, p.Inside t.values.d0 t.values.d1 t.values.d2 t.values.d3 →
      ∃ x, x ≠ 0 ∧ t.values.get p.i p.c p.o p.d = .fin x) :
    ∃ w, cumProdSparse t s = .ok w ∧ Holds w t.cumProdVals := by
  set a := t.values with ha
  have hfin : Arr.NoInf a := by
    intro p hp
    obtain ⟨x, -, hx⟩ := hi p hp
    rw [hx]
    simp [Num.NoInf]
  obtain ⟨k1, k2, k3⟩ := nanToNum_rep h.toRep h.fill hfin
  have hone : s.nanToNum.numToValue 1 = s.nanToNum.numToNan := by
    unfold numToNan numToValue
    have : (s.nanToNum.fill.eqb 0 || s.nanToNum.fill.isNan) = true := by rw [k2]; simp [Num.eqb, Num.isNan]
    rw [if_pos this, if_pos this]
  have hv := numToNan_holds k1 (.inr k2) k3
  set v := s.nanToNum.numToNan.todense with hvd
  have hcell : ∀ p : Ix, p.Inside a.d0 a.d1 a.d2 a.d3 → v.get p.i p.c p.o p.d = a.get p.i p.c p.o p.d := by
    intro p hp
    have := hv.cell p hp
    obtain ⟨x, hx, hx'⟩ := hi p hp
    show s.nanToNum.numToNan.get p = _
    rw [this]
    show (a.get p.i p.c p.o p.d).nanToNum.numToNan = _
    rw [hx']
    exact Num.numToNan_fin_of_ne hx
  have d0 : v.d0 = a.d0 := hv.d0
  have d1 : v.d1 = a.d1 := hv.d1
  have d2 : v.d2 = a.d2 := hv.d2
  have d3 : v.d3 = a.d3 := hv.d3
  have hz := zip_array (array_holds { v with get := fun i c o d => ∏ j ∈ Finset.Ico d v.d3, v.get i c o j })
    t.nanPlane (· * ·) rfl rfl
  obtain ⟨r, e1, e2, e3, e4, e5, e6⟩ := plane_zip { v with get := fun i c o d => ∏ j ∈ Finset.Ico d v.d3, v.get i c o j }
    (.inl rfl) fun o d => t.nanTri o d
  have hp : t.nanPlane = ⟨1, 1, v.d2, v.d3, fun _ _ o d => t.nanTri o d⟩ := by
    show (⟨1, 1, a.d2, a.d3, _⟩ : Arr K) = _
    rw [d2, d3]
  rw [hp] at hz
  have e1' : Arr.zip (· * ·) { v with get := fun i c o d => ∏ j ∈ Finset.Ico d v.d3, v.get i c o j }
    ⟨1, 1, v.d2, v.d3, fun _ _ o d => t.nanTri o d⟩ = .ok r := e1
  rw [e1'] at hz
  obtain ⟨w, q1, q2⟩ := hz
  refine ⟨w, ?_, ⟨q2.toRep.congr (e2.trans d0) (e3.trans d1) (e4.trans d2) (e5.trans d3) ?_, q2.fill, q2.noNan⟩⟩
  · unfold cumProdSparse
    rw [hone, hp]
    exact q1
  · intro p hin
    have hin' : p.Inside v.d0 v.d1 v.d2 v.d3 := by rw [d0, d1, d2, d3]; exact hin
    rw [e6 p hin', Arr.bix_self]
    show (∏ j ∈ Finset.Ico p.d v.d3, v.get p.i p.c p.o j) * _ =
      (∏ j ∈ Finset.Ico p.d a.d3, ((a.get p.i p.c p.o j).nanToNum).numToValue 1) * _
    rw [d3]
    congr 1
    refine Finset.prod_congr rfl fun j hj => ?_
    have hj := (Finset.mem_Ico.1 hj).2
    have hin2 : (⟨p.i, p.c, p.o, j⟩ : Ix).Inside a.d0 a.d1 a.d2 a.d3 := ⟨hin.1, hin.2.1, hin.2.2.1, hj⟩
    rw [hcell ⟨p.i, p.c, p.o, j⟩ hin2]
    obtain ⟨x, hx, hx'⟩ := hi _ hin2
    simp only at hx' ⊢
    rw [hx']
    simp [Num.nanToNum, Num.numToValue, hx]

end Tri
end CL
