import Verif.Props.C07
import Verif.Props.C19

set_option linter.unusedSectionVars false

namespace CL
namespace Tri
variable {K : Type} [Field K] [LinearOrder K] [IsStrictOrderedRing K]

/-- A valuation triangle with `n` origins of `q` periods from month `A` on, and `C` valuations, the
first one `L` months after the first origin starts, the last one at the valuation date. -/
structure ValGrid (v : Tri K) (A : Int) (n C q L : Nat) : Prop where
  wf : WF v
  finite : Finite v
  isVal : v.isVal = true
  origins : 1 ≤ n
  period : 1 ≤ q
  recent : q * (n - 1) < C
  odims : v.odims = (List.range n).map fun o : Nat => A + (o * q * v.dgrain.months : Nat)
  ddims : v.ddims = (List.range C).map fun k : Nat => A + L - 1 + (k * v.dgrain.months : Nat)
  lag : 1 ≤ L ∧ L ≤ v.dgrain.months
  vd : v.vd = A + L - 1 + ((C - 1) * v.dgrain.months : Nat)
  early : v.vd < 12 * 2261
  before : ∀ i < v.kdims.length, ∀ c < v.vdims.length, ∀ o < n, ∀ k < C, k < q * o →
    v.values.get i c o k = .nan

namespace ValGrid
variable {v : Tri K} {A : Int} {n C q L : Nat}

theorem lenO (h : ValGrid v A n C q L) : v.odims.length = n := by rw [h.odims]; simp
theorem lenD (h : ValGrid v A n C q L) : v.ddims.length = C := by rw [h.ddims]; simp
theorem columns (h : ValGrid v A n C q L) : 1 ≤ C := by have := h.recent; omega

theorem getO (h : ValGrid v A n C q L) {o : Nat} (ho : o < n) :
    v.odims.getD o 0 = A + (o * q * v.dgrain.months : Nat) := by
  rw [h.odims, List.getD_eq_getElem?_getD]; simp [ho]

theorem getK (h : ValGrid v A n C q L) {k : Nat} (hk : k < C) :
    v.ddims.getD k 0 = A + L - 1 + (k * v.dgrain.months : Nat) := by
  rw [h.ddims, List.getD_eq_getElem?_getD]; simp [hk]

theorem valuation (h : ValGrid v A n C q L) {o k : Nat} (hk : k < C) :
    v.valuation o k = A + L - 1 + (k * v.dgrain.months : Nat) := by
  unfold Tri.valuation valuationOf
  rw [h.isVal, if_pos rfl, h.getK hk]

theorem sorted (h : ValGrid v A n C q L) : v.ddims.Pairwise (· < ·) := by
  rw [h.ddims, List.pairwise_map]
  refine List.pairwise_lt_range.imp fun {i j} hij => ?_
  have : i * v.dgrain.months < j * v.dgrain.months :=
    Nat.mul_lt_mul_of_pos_right hij (months_pos _)
  omega

theorem le_vd (h : ValGrid v A n C q L) {x : Int} (hx : x ∈ v.ddims) : x ≤ v.vd := by
  rw [h.ddims] at hx
  obtain ⟨k, hk, rfl⟩ := List.mem_map.mp hx
  rw [h.vd]
  have hk' : k ≤ C - 1 := by have := List.mem_range.mp hk; omega
  have : k * v.dgrain.months ≤ (C - 1) * v.dgrain.months := Nat.mul_le_mul_right _ hk'
  omega

theorem mem_ddims (h : ValGrid v A n C q L) {x : Int} :
    (∃ o < v.odims.length, ∃ d < v.ddims.length, v.valuation o d = x) ↔ x ∈ v.ddims := by
  have hval : ∀ o d, v.valuation o d = v.ddims.getD d 0 := by
    intro o d; unfold Tri.valuation valuationOf; rw [h.isVal, if_pos rfl]
  simp only [hval]
  constructor
  · rintro ⟨o, -, d, hd, rfl⟩
    rw [List.getD_eq_getElem _ _ hd]; exact List.getElem_mem hd
  · intro hx
    obtain ⟨d, hd, e⟩ := List.getElem_of_mem hx
    exact ⟨0, by rw [h.lenO]; have := h.origins; omega, d, hd, by
      rw [List.getD_eq_getElem _ _ hd]; exact e⟩

theorem knownValuations (h : ValGrid v A n C q L) : Dev.knownValuations v = v.ddims := by
  refine List.Pairwise.eq_of_mem_iff (knownValuations_sorted _) h.sorted fun x => ?_
  rw [mem_knownValuations, h.mem_ddims]
  exact ⟨fun hx => hx.2, fun hx => ⟨h.le_vd hx, hx⟩⟩

theorem notUltimate (h : ValGrid v A n C q L) : v.isUltimate = false := by
  rw [Bool.eq_false_iff]
  intro hu
  obtain ⟨x, hx, hd⟩ := List.any_eq_true.mp hu
  have h3 := of_decide_eq_true hd
  obtain ⟨o, d, ho, hd', e⟩ := mem_valuations.mp hx
  have := h.le_vd (h.mem_ddims.mp ⟨o, ho, d, hd', e⟩)
  have := h.early
  omega

/-- The triangle by age. -/
def byAge (v : Tri K) (C L : Nat) (g : Nat → Nat → Nat → Nat → Num K) : Tri K :=
  { v with
    ddims := (List.range C).map fun k : Nat => (k : Int) * v.dgrain.months + L
    isVal := false
    values := ⟨v.values.d0, v.values.d1, v.values.d2, C, g⟩ }

theorem valToDev_eq (h : ValGrid v A n C q L) (hq : Dev.valOffset v.dgrain v.ograin = some q)
    (hl : n = 1 ∨ Later v) : ∃ g, v.valToDev = .ok (byAge v C L g) ∧
      ∀ i c o d, o < n → g i c o d = if q * o + d < C then v.values.get i c o (q * o + d)
        else .nan := by
  have hp := months_pos v.dgrain
  have hn1 := h.origins
  have hC := h.columns
  have hrec := h.recent
  have hkv := h.knownValuations
  have hco : ∀ p ∈ v.coords, q * p.1 ≤ p.2 ∧ p.2 < C ∧ p.1 < n := by
    rintro ⟨o, k⟩ hpk
    obtain ⟨h1, h3, i, hi, c, hc, hx⟩ := mem_coords.mp hpk
    rw [h.wf.2.2.2, h.lenD] at h3
    rw [h.wf.2.2.1, h.lenO] at h1
    rw [h.wf.1] at hi
    rw [h.wf.2.1] at hc
    refine ⟨?_, h3, h1⟩
    by_contra hcon
    exact hx (h.before i hi c hc o h1 k h3 (by simpa using hcon))
  have hd2 : v.values.d2 = n := by rw [h.wf.2.2.1, h.lenO]
  have hd3 : v.values.d3 = C := by rw [h.wf.2.2.2, h.lenD]
  have hone : C = 1 → n = 1 := by
    intro hc
    by_contra hne
    have : 1 * 1 ≤ q * (n - 1) := Nat.mul_le_mul h.period (by omega)
    omega
  -- the shifted array
  have hvd : ∃ g, v.valDev (-1) = .ok { v with
      values := ⟨v.values.d0, v.values.d1, v.values.d2, C, g⟩ } ∧
      ∀ i c o d, o < n → g i c o d = if q * o + d < C then v.values.get i c o (q * o + d)
        else .nan := by
    rcases hl with hn | hl
    · refine ⟨fun i c o k => if 0 ≤ (k : Int) ∧ (k : Int) < v.values.d3 then v.values.get i c o k
        else .nan, ?_, ?_⟩
      rotate_left
      · intro i c o d ho
        have : o = 0 := by omega
        subst this
        simp [hd3]
      subst hn
      have hall : (v.coords.all fun p => p.1 == 0) = true := by
        rw [List.all_eq_true]
        intro p hp
        have := (hco p hp).2.2
        simp; omega
      unfold valDev
      rw [hq]
      have hx : (v.coords.map fun p => (p.2 : Int) + (((1 - 1 : Nat) : Int) * (q : Int))) =
          v.coords.map fun p => (p.2 : Int) := by
        apply List.map_congr_left; intro p _; simp
      have hnn : ∀ x ∈ v.coords.map (fun p => (p.2 : Int)), 0 ≤ x ∧ x < C := by
        intro x hx
        obtain ⟨p, hp, rfl⟩ := List.mem_map.mp hx
        have := (hco p hp).2.1
        constructor <;> omega
      have hnd : (if (Dev.knownValuations v).length = 1 then v.odims.length
          else (Dev.knownValuations v).length) = C := by
        rw [hkv, h.lenD, h.lenO]
        split_ifs with hc
        · omega
        · rfl
      simp only [hd2, one_ne_zero, if_false, hall, if_true, and_true, hnd, hx]
      generalize (v.coords.map fun p => (p.2 : Int)) = xs at hnn
      have hmin : ∀ m, xs.min? = some m → ¬ m < 0 := fun m hm =>
        not_lt.mpr (hnn m (List.min?_eq_some_iff.mp hm).1).1
      have hno : ¬ (xs.any fun x => decide ((C : Int) ≤ x)) = true := by
        intro hany
        obtain ⟨y, hy, hd⟩ := List.any_eq_true.mp hany
        have := of_decide_eq_true hd
        have := (hnn y hy).2
        omega
      cases e : xs.min? with
      | none => simp [hnd, hno]
      | some m =>
        have hm := hmin m e
        cases e' : xs.max? with
        | none => simp [hnd, hm, hno]
        | some x => simp [hnd, hm, hno]
    · have hlat : ∃ p ∈ v.coords, p.1 ≠ 0 := by
        obtain ⟨i, hi, c, hc, o, ho, d, hd, hne, hx⟩ := hl
        exact ⟨(o, d), mem_coords.mpr ⟨by rw [h.wf.2.2.1]; exact ho, by rw [h.wf.2.2.2]; exact hd,
          i, by rw [h.wf.1]; exact hi, c, by rw [h.wf.2.1]; exact hc, hx⟩, hne⟩
      refine ⟨_, valDev_eq (sign := -1) hq (by omega) hlat (by rw [hkv, h.lenD]) ?_ ?_, ?_⟩
      · rintro ⟨hc, -⟩
        have hn := hone hc
        obtain ⟨p, hp, hne⟩ := hlat
        have := (hco p hp).2.2
        omega
      · rintro ⟨o, k⟩ hp
        obtain ⟨h1, h2, -⟩ := hco _ hp
        simp only at h1 h2 ⊢
        have e : ((q * o : Nat) : Int) = o * q := by push_cast; ring
        have h1' : ((q * o : Nat) : Int) ≤ k := by exact_mod_cast h1
        rw [e] at h1'
        have : (0 : Int) ≤ o * q := by positivity
        constructor
        · linarith
        · have : (k : Int) < C := by exact_mod_cast h2
          linarith
      · intro i c o k _
        have e1 : (k : Int) - o * q * (-1) = ((q * o + k : Nat) : Int) := by push_cast; ring
        show (if _ then _ else _) = _
        rw [e1, hd3]
        by_cases hk : q * o + k < C
        · rw [if_pos ⟨by positivity, by exact_mod_cast hk⟩, if_pos hk, Int.toNat_natCast]
        · rw [if_neg (fun hc => hk (by exact_mod_cast hc.2)), if_neg hk]
  have hu := h.notUltimate
  have h0 : v.valuation 0 0 = A + L - 1 := by rw [h.valuation (by omega)]; simp
  have ho : (if v.ddims.length = 1 ∧ v.ddims.getD 0 0 = v.vd then (v.odims.getLast?).getD 0
      else v.odims.getD 0 0) = A := by
    have e0 : v.odims.getD 0 0 = A := by rw [h.getO (by omega)]; simp
    split_ifs with hc
    · have hn := hone (by rw [← h.lenD]; exact hc.1)
      subst hn
      rw [h.odims]; simp
    · exact e0
  have hb : v.isVal = true := h.isVal
  have hlag : A + (L : Int) - 1 - A + 1 = L := by ring
  unfold valToDev
  rw [hu]
  simp only [hb, Bool.false_and, Bool.false_eq_true, if_false, bind, Except.bind,
    pure, Except.pure, Bool.true_eq_false]
  obtain ⟨g, hvd, hg⟩ := hvd
  refine ⟨g, ?_, hg⟩
  rw [hvd]
  simp only [ho]
  have e0 : Tri.valuation { v with
    values := ⟨v.values.d0, v.values.d1, v.values.d2, C, g⟩ } 0 0 = A + L - 1 := h0
  rw [e0, hlag]
  rfl

end ValGrid
end Tri
end CL
