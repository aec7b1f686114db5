import Verif.Spec.CapeCod
import Verif.Lemmas.Benktander

set_option linter.unusedSectionVars false

/-! # The arrays of the Cape Cod method -/

namespace CL
variable {K : Type} [Field K] [LinearOrder K] [IsStrictOrderedRing K]

namespace Arr

/-- One entry per index, column and origin. -/
def Col (a : Arr K) (I C O : Nat) : Prop := a.d0 = I ∧ a.d1 = C ∧ a.d2 = O ∧ a.d3 = 1

/-- One entry per index, column and origin, or one for all of them. -/
def ColFits (a : Arr K) (I C O : Nat) : Prop :=
  (a.d0 = I ∨ a.d0 = 1) ∧ (a.d1 = C ∨ a.d1 = 1) ∧ (a.d2 = O ∨ a.d2 = 1) ∧ a.d3 = 1

theorem Col.fits {a : Arr K} {I C O : Nat} (h : Col a I C O) : ColFits a I C O :=
  ⟨Or.inl h.1, Or.inl h.2.1, Or.inl h.2.2.1, h.2.2.2⟩

theorem scalar_fits (x : Num K) (I C O : Nat) : ColFits (Arr.scalar x) I C O :=
  ⟨Or.inr rfl, Or.inr rfl, Or.inr rfl, rfl⟩

theorem bix_eq {m n i : Nat} (h : m = n ∨ m = 1) (hi : i < n) :
    bix m n i = if m = 1 then 0 else i := by
  unfold bix
  split_ifs <;> omega

theorem Col.entry {a : Arr K} {I C O : Nat} (h : Col a I C O) {i c o : Nat} (hi : i < I) (hc : c < C)
    (ho : o < O) : a.entry i c o = a.get i c o 0 := by
  obtain ⟨h0, h1, h2, h3⟩ := h
  unfold Arr.entry
  congr 1 <;> split_ifs <;> omega

theorem zip_col (f : Num K → Num K → Num K) {a b : Arr K} {I C O : Nat} (ha : Col a I C O)
    (hb : ColFits b I C O) :
    ∃ r, zip f a b = .ok r ∧ Col r I C O ∧ ∀ i < I, ∀ c < C, ∀ o < O,
      r.get i c o 0 = f (a.get i c o 0) (b.entry i c o) := by
  obtain ⟨a0, a1, a2, a3⟩ := ha
  obtain ⟨b0, b1, b2, b3⟩ := hb
  have hf : Fits b a := ⟨by rw [a0]; exact b0, by rw [a1]; exact b1, by rw [a2]; exact b2,
    Or.inr b3⟩
  refine ⟨_, zip_fits f hf, ⟨a0, a1, a2, a3⟩, ?_⟩
  intro i hi c hc o ho
  show f (a.get i c o 0) (b.get (bix b.d0 a.d0 i) (bix b.d1 a.d1 c) (bix b.d2 a.d2 o)
    (bix b.d3 a.d3 0)) = _
  rw [a0, a1, a2, a3, b3, bix_eq b0 hi, bix_eq b1 hc, bix_eq b2 ho]
  rfl

end Arr

namespace Tri

theorem natAbs_apart (o p : Nat) : ((o : Int) - p).natAbs = apart o p := by
  unfold apart; omega

/-- The array of the a-prioris. -/
theorem capecodArr_spec {decay : K} (hdec : 0 ≤ decay) {rep l tr xo so : Arr K} {I C O : Nat}
    (hrep : Arr.Col rep I C O) (hl : Arr.Col l I C O) (htr : Arr.ColFits tr I C O)
    (hxo : Arr.ColFits xo I C O) (hso : Arr.ColFits so I C O) {E L T X S : Nat → Nat → Nat → K}
    (eE : ∀ i < I, ∀ c < C, ∀ o < O, rep.get i c o 0 = .fin (E i c o) ∧ 0 < E i c o)
    (eL : ∀ i < I, ∀ c < C, ∀ o < O, l.get i c o 0 = (Num.fin (L i c o)).numToNan)
    (eT : ∀ i < I, ∀ c < C, ∀ o < O, tr.entry i c o = .fin (T i c o))
    (eX : ∀ i < I, ∀ c < C, ∀ o < O, xo.entry i c o = .fin (X i c o))
    (eS : ∀ i < I, ∀ c < C, ∀ o < O, so.entry i c o = .fin (S i c o) ∧ 0 < S i c o) :
    ∃ a, capecodArr decay O rep l tr xo so = .ok a ∧ Arr.Col a I C O ∧
      ∀ i < I, ∀ c < C, ∀ o < O, a.get i c o 0 =
        .fin (wavg O (fun p => E i c p * decay ^ apart o p)
          (fun p => L i c p * T i c p * X i c p / (E i c p * S i c p))) := by
  obtain ⟨r0, r1, r2, r3⟩ := hrep
  -- the weights
  obtain ⟨we, e1, w0, w1, w2, w3, hwe⟩ : ∃ we, Arr.zip (· * ·) rep.swap (decayMatrix decay O) = .ok we ∧
      we.d0 = I ∧ we.d1 = C ∧ we.d2 = O ∧ we.d3 = O ∧
      ∀ i < I, ∀ c < C, ∀ o < O, ∀ p < O, we.get i c o p = .fin (E i c p * decay ^ apart o p) := by
    have b2 : Arr.bdim (1 : Nat) O = some O := by
      unfold Arr.bdim
      split_ifs <;> simp_all
    have b0 : ∀ n : Nat, Arr.bdim n 1 = some n := by
      intro n
      unfold Arr.bdim
      split_ifs <;> simp_all
    have b3 : Arr.bdim O O = some O := by unfold Arr.bdim; rw [if_pos rfl]
    refine ⟨_, by
      unfold Arr.zip
      simp only [Arr.swap, decayMatrix, r0, r1, r2, r3, b0, b2, b3]
      rfl, rfl, rfl, rfl, rfl, ?_⟩
    intro i hi c hc o ho p hp
    show rep.get (Arr.bix I I i) (Arr.bix C C c) (Arr.bix O O p) (Arr.bix 1 O o) *
      .fin (decay ^ (((Arr.bix O O o : Nat) : Int) - (Arr.bix O O p : Nat)).natAbs) = _
    have hz : Arr.bix 1 O o = 0 := by unfold Arr.bix; split_ifs <;> omega
    rw [Arr.bix_self, Arr.bix_self, Arr.bix_self, Arr.bix_self, hz, (eE i hi c hc p hp).1,
      Num.fin_mul_fin, natAbs_apart]
  obtain ⟨a1, e2, s1, v1⟩ := Arr.zip_col (· * ·) hl htr
  obtain ⟨a2, e3, s2, v2⟩ := Arr.zip_col (· * ·) s1 hxo
  obtain ⟨b, e4, s3, v3⟩ := Arr.zip_col (· * ·) (a := rep) ⟨r0, r1, r2, r3⟩ hso
  obtain ⟨tu, e5, s4, v4⟩ := Arr.zip_col (· / ·) s2 s3.fits
  obtain ⟨t0, t1, t2, t3⟩ := s4
  have htu : ∀ i < I, ∀ c < C, ∀ o < O, tu.get i c o 0 =
      if L i c o = 0 then .nan else .fin (L i c o * T i c o * X i c o / (E i c o * S i c o)) := by
    intro i hi c hc o ho
    rw [v4 i hi c hc o ho, s3.entry hi hc ho, v3 i hi c hc o ho, v2 i hi c hc o ho,
      v1 i hi c hc o ho, eL i hi c hc o ho, eT i hi c hc o ho, eX i hi c hc o ho,
      (eE i hi c hc o ho).1, (eS i hi c hc o ho).1, Num.fin_mul_fin]
    have hne : E i c o * S i c o ≠ 0 :=
      (mul_pos (eE i hi c hc o ho).2 (eS i hi c hc o ho).2).ne'
    split_ifs with h
    · rw [h]; simp [Num.numToNan_fin]
    · rw [Num.numToNan_fin_of_ne h, Num.fin_mul_fin, Num.fin_mul_fin, Num.fin_div_fin_of_ne _ hne]
  -- weights times ratios
  obtain ⟨s, e6, q0, q1, q2, q3, hs⟩ : ∃ s, Arr.zip (· * ·) we tu.swap = .ok s ∧
      s.d0 = I ∧ s.d1 = C ∧ s.d2 = O ∧ s.d3 = O ∧
      ∀ i < I, ∀ c < C, ∀ o < O, ∀ p < O, (s.get i c o p).nan0 =
        .fin (E i c p * decay ^ apart o p * (L i c p * T i c p * X i c p / (E i c p * S i c p))) := by
    have hf : Arr.Fits tu.swap we := ⟨Or.inl (by rw [w0]; exact t0), Or.inl (by rw [w1]; exact t1),
      Or.inr t3, Or.inl (by rw [w3]; exact t2)⟩
    refine ⟨_, Arr.zip_fits _ hf, w0, w1, w2, w3, ?_⟩
    intro i hi c hc o ho p hp
    show (we.get i c o p * tu.get (Arr.bix tu.d0 we.d0 i) (Arr.bix tu.d1 we.d1 c)
      (Arr.bix tu.d2 we.d3 p) (Arr.bix tu.d3 we.d2 o)).nan0 = _
    have hz : Arr.bix tu.d3 we.d2 o = 0 := by rw [t3, w2]; unfold Arr.bix; split_ifs <;> omega
    rw [hz, t0, t1, t2, w0, w1, w3, Arr.bix_self, Arr.bix_self, Arr.bix_self, hwe i hi c hc o ho p hp,
      htu i hi c hc p hp]
    split_ifs with h
    · rw [h]
      simp [Num.nan0, Num.zero_def]
    · rw [Num.fin_mul_fin]; rfl
  have hf : Arr.Col s.nansumLast I C O := ⟨q0, q1, q2, rfl⟩
  have hg : Arr.Col we.nansumLast I C O := ⟨w0, w1, w2, rfl⟩
  obtain ⟨r, e7, s5, v5⟩ := Arr.zip_col (· / ·) hf hg.fits
  refine ⟨r, ?_, s5, ?_⟩
  · unfold capecodArr
    simp only [e1, e2, e3, e4, e5, e6, bind, Except.bind]
    exact e7
  · intro i hi c hc o ho
    rw [v5 i hi c hc o ho, hg.entry hi hc ho]
    show (∑ p ∈ Finset.range s.d3, (s.get i c o p).nan0) /
      (∑ p ∈ Finset.range we.d3, (we.get i c o p).nan0) = _
    rw [q3, w3]
    have n1 : ∑ p ∈ Finset.range O, (s.get i c o p).nan0 = .fin (∑ p ∈ Finset.range O,
        E i c p * decay ^ apart o p * (L i c p * T i c p * X i c p / (E i c p * S i c p))) := by
      rw [← Num.sum_fin]
      exact Finset.sum_congr rfl fun p hp => hs i hi c hc o ho p (Finset.mem_range.1 hp)
    have n2 : ∑ p ∈ Finset.range O, (we.get i c o p).nan0 = .fin (∑ p ∈ Finset.range O,
        E i c p * decay ^ apart o p) := by
      rw [← Num.sum_fin]
      refine Finset.sum_congr rfl fun p hp => ?_
      rw [hwe i hi c hc o ho p (Finset.mem_range.1 hp)]
      rfl
    have hpos : 0 < ∑ p ∈ Finset.range O, E i c p * decay ^ apart o p := by
      apply Finset.sum_pos'
      · intro p hp
        exact mul_nonneg (eE i hi c hc p (Finset.mem_range.1 hp)).2.le (pow_nonneg hdec _)
      · refine ⟨o, Finset.mem_range.2 ho, ?_⟩
        have : apart o o = 0 := by unfold apart; omega
        rw [this, pow_zero, mul_one]
        exact (eE i hi c hc o ho).2
    rw [n1, n2, Num.fin_div_fin_of_ne _ hpos.ne']
    rfl

end Tri
end CL
