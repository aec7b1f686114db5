import Verif.Lemmas.Sparse
import Verif.Spec.Examples

set_option linter.unusedSectionVars false

/-!
# C25: the sparse and the dense backend

Conversion there and back, and a refinement: any sequence of steps gives the same with both backends.
-/

namespace CL
open Coo

section
variable {K : Type} [Field K] [LinearOrder K] [IsStrictOrderedRing K]

/-- The same shape and the same value at every cell. -/
def Arr.Same (a b : Arr K) : Prop :=
  a.d0 = b.d0 ∧ a.d1 = b.d1 ∧ a.d2 = b.d2 ∧ a.d3 = b.d3 ∧
    ∀ i < b.d0, ∀ c < b.d1, ∀ o < b.d2, ∀ d < b.d3, a.get i c o d = b.get i c o d

/-- What the library keeps of its sparse arrays: every cell is stored at most once and lies in the shape,
the other cells are missing or 0, and no missing value is stored. -/
structure Coo.Valid (s : Coo K) : Prop where
  once : ∀ p x y, (p, x) ∈ s.cells → (p, y) ∈ s.cells → x = y
  nodup : s.cells.Nodup
  inside : ∀ p x, (p, x) ∈ s.cells → p.i < s.d0 ∧ p.c < s.d1 ∧ p.o < s.d2 ∧ p.d < s.d3
  fill : s.fill = .nan ∨ s.fill = .fin 0
  known : ∀ p, (p, Num.nan) ∉ s.cells

theorem Coo.Holds.same {s : Coo K} {a : Arr K} (h : Holds s a) : Arr.Same s.todense a :=
  ⟨h.d0, h.d1, h.d2, h.d3, fun i hi c hc o ho d hd => h.cell ⟨i, c, o, d⟩ ⟨hi, hc, ho, hd⟩⟩

theorem Coo.Rep.same {s : Coo K} {a : Arr K} (h : Rep s a) : Arr.Same s.todense a :=
  ⟨h.d0, h.d1, h.d2, h.d3, fun i hi c hc o ho d hd => h.cell ⟨i, c, o, d⟩ ⟨hi, hc, ho, hd⟩⟩

theorem Coo.Valid.holds {s : Coo K} (h : Valid s) : Holds s s.todense := by
  refine ⟨⟨rfl, rfl, rfl, rfl, ?_, fun e he => h.inside e.1 e.2 he, fun p _ => rfl⟩, h.fill, ?_⟩
  · refine List.Nodup.map_on ?_ h.nodup
    rintro ⟨p, x⟩ h1 ⟨q, y⟩ h2 rfl
    rw [h.once p x y h1 h2]
  · rintro ⟨p, x⟩ he rfl
    exact h.known p he

theorem Coo.Holds.valid {s : Coo K} {a : Arr K} (h : Holds s a) : Valid s where
  once p x y h1 h2 := by
    have e1 := mem_stored h.nodup h1
    rw [mem_stored h.nodup h2] at e1
    exact (Option.some.inj e1).symm
  nodup := List.Nodup.of_map _ h.nodup
  inside p x he := by
    have := h.inside _ he
    rw [h.d0, h.d1, h.d2, h.d3]
    exact this
  fill := h.fill
  known p he := h.noNan _ he rfl

/-- A dense array made sparse is valid, stores exactly the cells that are not missing, and comes back
unchanged. -/
theorem C25_store (a : Arr K) : Valid (Coo.array a) ∧ Arr.Same (Coo.array a).todense a ∧
    ∀ p x, (p, x) ∈ (Coo.array a).cells ↔
      (p.i < a.d0 ∧ p.c < a.d1 ∧ p.o < a.d2 ∧ p.d < a.d3) ∧ a.get p.i p.c p.o p.d = x ∧ x ≠ .nan := by
  refine ⟨(array_holds a).valid, (array_holds a).same, fun p x => ?_⟩
  have h := array_holds a
  constructor
  · intro he
    exact ⟨h.inside _ he, (h.toRep.stored_eq he).symm, h.noNan _ he⟩
  · rintro ⟨hp, rfl, hx⟩
    have := h.cell p hp
    unfold Coo.get at this
    cases hs : (Coo.array a).stored p with
    | none => rw [hs] at this; exact absurd this.symm hx
    | some y =>
      rw [hs] at this
      rw [← this]
      exact stored_mem hs

/-- A sparse array made dense and sparse again has the same cells, unless its fill value was 0, when the
zeros are stored too. -/
theorem C25_dense {s : Coo K} (h : Valid s) : Arr.Same (Coo.array s.todense).todense s.todense ∧
    (s.fill = .nan → ∀ e, e ∈ (Coo.array s.todense).cells ↔ e ∈ s.cells) := by
  refine ⟨(C25_store s.todense).2.1, ?_⟩
  rintro hf ⟨p, x⟩
  rw [(C25_store s.todense).2.2 p x]
  constructor
  · rintro ⟨-, h2, h3⟩
    have h2 : s.get p = x := h2
    unfold Coo.get at h2
    cases hs : s.stored p with
    | none => rw [hs, hf] at h2; exact absurd h2.symm h3
    | some y =>
      rw [hs] at h2
      rw [← h2]
      exact stored_mem hs
  · intro he
    exact ⟨h.inside p x he, (h.holds.toRep.stored_eq he).symm, fun h0 => h.known p (h0 ▸ he)⟩

/-- Replacing missing values by 0 and zeros by missing values. -/
theorem C25_zeros {s : Coo K} (h : Valid s) :
    (s.todense.NoInf → Arr.Same s.nanToNum.todense (s.todense.map Num.nanToNum)) ∧
      Valid s.numToNan ∧ Arr.Same s.numToNan.todense (s.todense.map Num.numToNan) :=
  ⟨fun hi => (nanToNum_rep h.holds.toRep h.fill hi).1.same,
    (numToNan_holds h.holds.toRep h.fill h.holds.noNan).valid,
    (numToNan_holds h.holds.toRep h.fill h.holds.noNan).same⟩

namespace Tri

/-- The steps for which the backends agree on `t`: operands of sums without infinities, positive powers,
and cumulation of amounts, or of multiplicative patterns without gaps and zeros. -/
def Plain (t : Tri K) : Step K → Prop
  | .add b => b.NoInf
  | .sub b => b.NoInf
  | .pow n => n ≠ 0
  | .cum => t.isCum = some true ∨ t.isPattern = false ∨ t.isAdditive = some false ∨
      t.isAdditive = none ∧ ∀ i < t.values.d0, ∀ c < t.values.d1, ∀ o < t.values.d2, ∀ d < t.values.d3,
        ∃ x, x ≠ 0 ∧ t.values.get i c o d = .fin x
  | _ => True

/-- Every step is plain and no infinity occurs on the way. -/
def Tame : Tri K → List (Step K) → Prop
  | _, [] => True
  | t, x :: xs => t.values.NoInf ∧ Plain t x ∧ ∀ u, x.dense t = .ok u → Tame u xs

/-- One step. -/
theorem step_holds (t : Tri K) {s : Coo K} (h : Holds s t.values) (hi : t.values.NoInf) (x : Step K)
    (hx : Plain t x) :
    match x.dense t with
    | .error e => x.sparse t s = .error e
    | .ok u => ∃ v, x.sparse t s = .ok v ∧ Holds v u.values := by
  cases x with
  | add b => exact addSparse_holds t h hi b hx (· + ·) (· + ·) (fun _ _ => rfl) (add_zero 0)
  | sub b => exact addSparse_holds t h hi b hx (· - ·) (· - ·) (fun x y => Num.fin_sub_fin x y) (sub_zero 0)
  | mul b =>
    have := zip_array h b (· * ·) rfl rfl
    show match (t.zipArr (· * ·) b) with
      | .error e => s.zip (· * ·) (Coo.array b) = .error e
      | .ok u => ∃ v, s.zip (· * ·) (Coo.array b) = .ok v ∧ Holds v u.values
    unfold zipArr
    simp only [bind, Except.bind]
    cases e : Arr.zip (· * ·) t.values b with
    | error e' => rw [e] at this; exact this
    | ok r => rw [e] at this; exact this
  | div b =>
    have := zip_array h b (· / ·) rfl rfl
    show match (t.zipArr (· / ·) b) with
      | .error e => s.zip (· / ·) (Coo.array b) = .error e
      | .ok u => ∃ v, s.zip (· / ·) (Coo.array b) = .ok v ∧ Holds v u.values
    unfold zipArr
    simp only [bind, Except.bind]
    cases e : Arr.zip (· / ·) t.values b with
    | error e' => rw [e] at this; exact this
    | ok r => rw [e] at this; exact this
  | neg => exact ⟨_, rfl, negSparse_holds h⟩
  | pow n => exact ⟨_, rfl, powSparse_holds h hi hx⟩
  | sum ax => exact ⟨_, rfl, sumSparse_holds h hi ax⟩
  | cum =>
    simp only [Step.dense, Step.sparse, incrToCum]
    by_cases hc : t.isCum = some true
    · simp only [if_pos hc]
      exact ⟨s, rfl, h⟩
    · simp only [if_neg hc]
      by_cases hp : t.isPattern = true
      · simp only [if_pos hp]
        rcases hx with hx | hx | hx | ⟨hx, hg⟩
        · exact absurd hx hc
        · rw [hp] at hx; cases hx
        · simp only [hx]
          exact ⟨s, rfl, h⟩
        · simp only [hx]
          exact cumProdSparse_holds t h fun p hp => hg _ hp.1 _ hp.2.1 _ hp.2.2.1 _ hp.2.2.2
      · simp only [if_neg hp]
        exact cumSparse_holds t h hi

theorem run_holds (xs : List (Step K)) : ∀ (t : Tri K) {s : Coo K}, Holds s t.values → Tame t xs →
    match runDense t xs with
    | .error e => runSparse t s xs = .error e
    | .ok u => ∃ v, runSparse t s xs = .ok v ∧ Holds v u.values := by
  induction xs with
  | nil => intro t s h _; exact ⟨s, rfl, h⟩
  | cons x xs ih =>
    intro t s h ht
    have h1 := step_holds t h ht.1 x ht.2.1
    unfold runDense runSparse
    simp only [bind, Except.bind]
    cases e : x.dense t with
    | error e' =>
      rw [e] at h1
      simp only at h1 ⊢
      rw [h1]
    | ok u =>
      rw [e] at h1
      obtain ⟨v, hv, hv'⟩ := h1
      simp only
      rw [hv]
      exact ih u hv' (ht.2.2 u e)

end Tri

/-- Any sequence of arithmetic operations, cumulations and sums gives the same with both backends: the
same error, or the same value at every cell.  Left out: other methods, infinities, and what
`C25_pattern_false`, `C25_power_false` and `C25_infinity_false` show. -/
theorem C25_run_partial (t : Tri K) (xs : List (Tri.Step K)) (h : Tri.Tame t xs) :
    match Tri.runDense t xs with
    | .error e => Tri.runSparse t (Coo.array t.values) xs = .error e
    | .ok u => ∃ v, Tri.runSparse t (Coo.array t.values) xs = .ok v ∧ Valid v ∧ Arr.Same v.todense u.values := by
  have := Tri.run_holds xs t (array_holds t.values) h
  cases e : Tri.runDense t xs with
  | error e' => rw [e] at this; exact this
  | ok u =>
    rw [e] at this
    obtain ⟨v, h1, h2⟩ := this
    exact ⟨v, h1, h2.valid, h2.same⟩

/-- The array with another value at one cell. -/
def Arr.put (a : Arr K) (p : Ix) (x : Num K) : Arr K :=
  { a with get := fun i c o d => if i = p.i ∧ c = p.c ∧ o = p.o ∧ d = p.d then x else a.get i c o d }

/-- Assignment of a number to a cell of an array with some stored cell. -/
theorem C25_assign_partial {s : Coo K} (h : Valid s) (hne : s.cells ≠ []) (p : Ix)
    (hp : p.i < s.d0 ∧ p.c < s.d1 ∧ p.o < s.d2 ∧ p.d < s.d3) (x : Num K) (hx : x ≠ .nan) :
    ∃ v, s.setItem p x = .ok v ∧ Valid v ∧ Arr.Same v.todense (s.todense.put p x) := by
  have hH := h.holds
  unfold setItem
  rw [if_neg hne]
  by_cases ha : s.cells.any (fun e => e.1 = p) = true
  · rw [if_pos ha]
    refine ⟨_, rfl, ?_⟩
    have hk : (s.cells.map fun e => if e.1 = p then (e.1, x) else e).map (·.1) = s.cells.map (·.1) := by
      rw [List.map_map]
      refine List.map_congr_left fun e _ => ?_
      simp only [Function.comp]
      split_ifs <;> rfl
    have hs : ∀ q, stored { s with cells := s.cells.map fun e => if e.1 = p then (e.1, x) else e } q =
        if q = p then some x else s.stored q := by
      intro q
      have hnd : ((({ s with cells := s.cells.map fun e => if e.1 = p then (e.1, x) else e } : Coo K).cells).map (·.1)).Nodup := by
        rw [hk]; exact hH.nodup
      split_ifs with hq
      · subst hq
        obtain ⟨e, he, h1⟩ := List.any_eq_true.1 ha
        simp only [decide_eq_true_eq] at h1
        refine (stored_iff hnd).2 (List.mem_map.2 ⟨e, he, ?_⟩)
        rw [if_pos h1, h1]
      · cases e0 : s.stored q with
        | some y =>
          refine (stored_iff hnd).2 (List.mem_map.2 ⟨(q, y), stored_mem e0, ?_⟩)
          exact if_neg hq
        | none =>
          cases e1 : stored { s with cells := s.cells.map fun e => if e.1 = p then (e.1, x) else e } q with
          | none => rfl
          | some y =>
            obtain ⟨e, he, h1⟩ := List.mem_map.1 (stored_mem e1)
            split_ifs at h1 with h2
            · injection h1 with h1 h3
              exact absurd (h1.symm.trans h2) hq
            · rw [h1] at he
              rw [mem_stored hH.nodup he] at e0
              cases e0
    have hR : Holds { s with cells := s.cells.map fun e => if e.1 = p then (e.1, x) else e } (s.todense.put p x) := by
      refine ⟨⟨rfl, rfl, rfl, rfl, by rw [hk]; exact hH.nodup, ?_, ?_⟩, h.fill, ?_⟩
      · intro e he
        obtain ⟨e', he', h1⟩ := List.mem_map.1 he
        have := hH.inside e' he'
        split_ifs at h1 <;> rw [← h1] <;> exact this
      · intro q _
        unfold Coo.get
        rw [hs]
        by_cases hq : q = p
        · subst hq
          simp [Arr.put]
        · have : ¬ (q.i = p.i ∧ q.c = p.c ∧ q.o = p.o ∧ q.d = p.d) := by
            rintro ⟨h1, h2, h3, h4⟩
            cases q; cases p
            simp_all
          rw [if_neg hq]
          show _ = if _ then x else _
          rw [if_neg this]
          rfl
      · intro e he
        obtain ⟨e', he', h1⟩ := List.mem_map.1 he
        split_ifs at h1 <;> rw [← h1]
        · exact hx
        · exact hH.noNan e' he'
    exact ⟨hR.valid, hR.same⟩
  · rw [if_neg ha]
    refine ⟨_, rfl, ?_⟩
    have hnot : ∀ e ∈ s.cells, e.1 ≠ p := by
      intro e he h1
      exact ha (List.any_eq_true.2 ⟨e, he, by simpa using h1⟩)
    have hall : (((s.cells ++ [(p, x)]).filter fun e => !same e.2 s.fill).map (·.1)).Nodup := by
      refine List.Nodup.sublist (List.Sublist.map _ List.filter_sublist) ?_
      rw [List.map_append]
      refine List.Nodup.append hH.nodup (by simp) ?_
      rw [List.disjoint_left]
      intro q hq hq'
      simp only [List.map_cons, List.map_nil, List.mem_singleton] at hq'
      obtain ⟨e, he, rfl⟩ := List.mem_map.1 hq
      exact hnot e he hq'
    have hmem : ∀ q y, (q, y) ∈ (s.cells ++ [(p, x)]).filter (fun e => !same e.2 s.fill) ↔
        ((q, y) ∈ s.cells ∨ q = p ∧ y = x) ∧ same y s.fill = false := by
      intro q y
      simp [or_and_right]
    have hR : Holds { s with cells := (s.cells ++ [(p, x)]).filter fun e => !same e.2 s.fill } (s.todense.put p x) := by
      refine ⟨⟨rfl, rfl, rfl, rfl, hall, ?_, ?_⟩, h.fill, ?_⟩
      · rintro ⟨q, y⟩ he
        obtain ⟨h1, -⟩ := (hmem q y).1 he
        rcases h1 with h1 | ⟨rfl, -⟩
        · exact hH.inside _ h1
        · exact hp
      · intro q _
        have key : (s.todense.put p x).get q.i q.c q.o q.d = if q = p then x else s.get q := by
          by_cases hq : q = p
          · subst hq
            simp [Arr.put]
          · have : ¬ (q.i = p.i ∧ q.c = p.c ∧ q.o = p.o ∧ q.d = p.d) := by
              rintro ⟨h1, h2, h3, h4⟩
              cases q; cases p
              simp_all
            rw [if_neg hq]
            show (if _ then x else _) = _
            rw [if_neg this]
            rfl
        rw [key]
        have hpn : s.stored p = none := by
          cases e0 : s.stored p with
          | none => rfl
          | some y => exact absurd rfl (hnot _ (stored_mem e0))
        have hval : ∀ y, stored { s with cells := (s.cells ++ [(p, x)]).filter fun e => !same e.2 s.fill } q = some y →
            (if q = p then x else s.get q) = y := by
          intro y hy
          obtain ⟨h1, -⟩ := (hmem q y).1 (stored_mem hy)
          rcases h1 with h1 | ⟨rfl, rfl⟩
          · rw [if_neg (hnot _ h1)]
            unfold Coo.get
            rw [mem_stored hH.nodup h1]; rfl
          · exact if_pos rfl
        cases e1 : stored { s with cells := (s.cells ++ [(p, x)]).filter fun e => !same e.2 s.fill } q with
        | some y =>
          rw [hval y e1]
          unfold Coo.get
          rw [e1]; rfl
        | none =>
          have hno : ∀ y, ((q, y) ∈ s.cells ∨ q = p ∧ y = x) → y = s.fill := by
            intro y hy
            by_contra hne'
            have hsm : same y s.fill = false := by
              by_contra hc
              exact hne' (same_eq (by simpa using hc))
            have := mem_stored (s := { s with cells := (s.cells ++ [(p, x)]).filter fun e => !same e.2 s.fill }) hall
              ((hmem q y).2 ⟨hy, hsm⟩)
            rw [e1] at this
            cases this
          show _ = _
          unfold Coo.get
          rw [e1, Option.getD_none]
          split_ifs with hq
          · exact (hno x (.inr ⟨hq, rfl⟩)).symm
          · cases e0 : s.stored q with
            | none => rfl
            | some y => exact (hno y (.inl (stored_mem e0))).symm
      · rintro ⟨q, y⟩ he
        obtain ⟨h1, -⟩ := (hmem q y).1 he
        rcases h1 with h1 | ⟨-, h1⟩
        · exact hH.noNan _ h1
        · rw [h1]; exact hx
    exact ⟨hR.valid, hR.same⟩

end

section examples

/-- A pattern with a missing factor: dense counts it as 1, sparse loses the factors before it. -/
theorem C25_pattern_false : ¬ ∀ (t : Tri ℚ) (u : Tri ℚ) (v : Coo ℚ), t.values.NoInf →
    Tri.runDense t [.cum] = .ok u → Tri.runSparse t (Coo.array t.values) [.cum] = .ok v →
    Arr.Same v.todense u.values := by
  intro h
  obtain ⟨u, hu, hu'⟩ := ok_of (x := Tri.runDense (Ex.pat3 (some false) Ex.fac3) [.cum])
    (fun u => u.values.get 0 0 0 0 = .fin (33 / 20) ∧ u.values.d0 = 1 ∧ u.values.d1 = 1 ∧ u.values.d2 = 1 ∧ u.values.d3 = 3)
    (by decide +kernel)
  obtain ⟨v, hv, hv'⟩ := ok_of (x := Tri.runSparse (Ex.pat3 (some false) Ex.fac3) (Coo.array (Ex.pat3 (some false) Ex.fac3).values) [.cum])
    (fun v => v.todense.get 0 0 0 0 = .nan) (by decide +kernel)
  have hs := h _ u v (by
    rintro ⟨i, c, o, d⟩ -
    show (Ex.fac3 d).NoInf
    unfold Ex.fac3
    split <;> simp [Num.NoInf]) hu hv
  have := hs.2.2.2.2 0 (by omega) 0 (by omega) 0 (by omega) 0 (by omega)
  rw [hu'.1, hv'] at this
  cases this

/-- The power 0 of a missing value is 1 with both backends, but the sparse sum of them is 0. -/
theorem C25_power_false : ¬ ∀ (t : Tri ℚ) (u : Tri ℚ) (v : Coo ℚ), t.values.NoInf →
    Tri.runDense t [.pow 0, .sum .origin] = .ok u →
    Tri.runSparse t (Coo.array t.values) [.pow 0, .sum .origin] = .ok v → Arr.Same v.todense u.values := by
  intro h
  obtain ⟨u, hu, hu'⟩ := ok_of (x := Tri.runDense (Ex.tri3 (some true) Ex.cum3) [.pow 0, .sum .origin])
    (fun u => u.values.get 0 0 0 0 = .fin 3 ∧ u.values.d0 = 1 ∧ u.values.d1 = 1 ∧ u.values.d2 = 1 ∧ u.values.d3 = 3)
    (by decide +kernel)
  obtain ⟨v, hv, hv'⟩ := ok_of (x := Tri.runSparse (Ex.tri3 (some true) Ex.cum3) (Coo.array (Ex.tri3 (some true) Ex.cum3).values) [.pow 0, .sum .origin])
    (fun v => v.todense.get 0 0 0 0 = .nan) (by decide +kernel)
  have hs := h _ u v (by
    rintro ⟨i, c, o, d⟩ -
    show (Ex.cum3 o d).NoInf
    unfold Ex.cum3
    split <;> simp [Num.NoInf]) hu hv
  have := hs.2.2.2.2 0 (by omega) 0 (by omega) 0 (by omega) 0 (by omega)
  rw [hu'.1, hv'] at this
  cases this

/-- An infinity is replaced by the largest number with the dense backend only. -/
theorem C25_infinity_false : ¬ ∀ (t : Tri ℚ) (b : Arr ℚ) (u : Tri ℚ) (v : Coo ℚ), b.NoInf →
    Tri.runDense t [.add b] = .ok u → Tri.runSparse t (Coo.array t.values) [.add b] = .ok v →
    Arr.Same v.todense u.values := by
  intro h
  obtain ⟨u, hu, hu'⟩ := ok_of (x := Tri.runDense (Ex.tri3 (some true) fun _ _ => .pinf) [.add ⟨1, 1, 1, 1, fun _ _ _ _ => .fin 1⟩])
    (fun u => u.values.get 0 0 0 0 ≠ .pinf ∧ u.values.d0 = 1 ∧ u.values.d1 = 1 ∧ u.values.d2 = 3 ∧ u.values.d3 = 3)
    (by decide +kernel)
  obtain ⟨v, hv, hv'⟩ := ok_of (x := Tri.runSparse (Ex.tri3 (some true) fun _ _ => .pinf) (Coo.array (Ex.tri3 (some true) fun _ _ => .pinf).values) [.add ⟨1, 1, 1, 1, fun _ _ _ _ => .fin 1⟩])
    (fun v => v.todense.get 0 0 0 0 = .pinf) (by decide +kernel)
  have hs := h _ _ u v (by
    rintro ⟨i, c, o, d⟩ -
    simp [Num.NoInf]) hu hv
  have := hs.2.2.2.2 0 (by omega) 0 (by omega) 0 (by omega) 0 (by omega)
  rw [hv'] at this
  exact hu'.1 this.symm

/-- Assigning a missing value to a stored cell stores it, and sums over it are missing; with the dense
backend they skip it. -/
theorem C25_missing_false : ¬ ∀ (s v : Coo ℚ) (p : Ix), Valid s → s.setItem p .nan = .ok v →
    Arr.Same (v.nansum .origin).todense (v.todense.nansum .origin) := by
  intro h
  set s := Coo.array (Ex.tri3 (some true) Ex.cum3).values with hs
  obtain ⟨v, hv, h1, h2, h3⟩ := ok_of (x := s.setItem ⟨0, 0, 0, 0⟩ .nan)
    (fun v => (v.nansum .origin).todense.get 0 0 0 0 = .nan ∧ (v.todense.nansum .origin).get 0 0 0 0 = .fin 230 ∧
      v.d0 = 1 ∧ v.d1 = 1 ∧ v.d2 = 3 ∧ v.d3 = 3) (by decide +kernel)
  have := (h s v _ (C25_store _).1 hv).2.2.2.2 0 (show 0 < v.d0 by omega) 0 (show 0 < v.d1 by omega) 0
    Nat.zero_lt_one 0 (show 0 < v.d3 by omega)
  rw [h1, h2] at this
  cases this

/-- Assigning to a cell of an array without stored cells raises. -/
theorem C25_empty_false : ¬ ∀ (s : Coo ℚ) (p : Ix) (x : Num ℚ), Valid s →
    p.i < s.d0 ∧ p.c < s.d1 ∧ p.o < s.d2 ∧ p.d < s.d3 → x ≠ .nan → ∃ v, s.setItem p x = .ok v := by
  intro h
  obtain ⟨v, hv⟩ := h (Coo.array ⟨1, 1, 1, 1, fun _ _ _ _ => .nan⟩) ⟨0, 0, 0, 0⟩ (.fin 5) (C25_store _).1
    ⟨Nat.zero_lt_one, Nat.zero_lt_one, Nat.zero_lt_one, Nat.zero_lt_one⟩ (by decide)
  have : (Coo.array (K := ℚ) ⟨1, 1, 1, 1, fun _ _ _ _ => .nan⟩).cells = [] := by decide +kernel
  unfold setItem at hv
  rw [if_pos this] at hv
  cases hv

/-- A run on the example triangle: plus 10, times 2, summed over the origins. -/
example : ∃ v, Tri.runSparse (Ex.tri3 (some true) Ex.cum3) (Coo.array (Ex.tri3 (some true) Ex.cum3).values)
    [.add ⟨1, 1, 1, 1, fun _ _ _ _ => .fin 10⟩, .mul ⟨1, 1, 1, 1, fun _ _ _ _ => .fin 2⟩, .sum .origin] = .ok v ∧
      v.todense.get 0 0 0 0 = .fin 720 ∧ v.todense.get 0 0 0 2 = .fin 350 :=
  ok_of _ (by decide +kernel)

/-- Cumulation of incremental amounts stores the cells up to the valuation date. -/
example : ∃ v, Tri.runSparse (Ex.tri3 (some false) Ex.cum3) (Coo.array (Ex.tri3 (some false) Ex.cum3).values)
    [.cum] = .ok v ∧ v.todense.get 0 0 0 2 = .fin 415 ∧ v.todense.get 0 0 1 2 = .nan ∧ v.cells.length = 6 :=
  ok_of _ (by decide +kernel)

example : Tri.Tame (Ex.tri3 (some false) Ex.cum3) [.cum] := by
  refine ⟨?_, .inr (.inl rfl), fun _ _ => trivial⟩
  rintro ⟨i, c, o, d⟩ -
  show (Ex.cum3 o d).NoInf
  unfold Ex.cum3
  split <;> simp [Num.NoInf]

end examples
end CL
