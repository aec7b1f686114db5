import Verif.Model.Reshape
import Verif.Props.C20

set_option linter.unusedSectionVars false

/-! # C23: shift -/

namespace CL
namespace Tri
variable {K : Type} [Field K] [LinearOrder K] [IsStrictOrderedRing K]

/-- A cell without amount. -/
def NoAmount (x : Num K) : Prop := x = .nan ∨ x = 0

/-- What a shift keeps: labels, flags and shape. -/
structure SameFrame (u t : Tri K) : Prop where
  wf : WF u
  kdims : u.kdims = t.kdims
  vdims : u.vdims = t.vdims
  odims : u.odims = t.odims
  ddims : u.ddims = t.ddims
  isVal : u.isVal = t.isVal
  keyLabels : u.keyLabels = t.keyLabels
  ograin : u.ograin = t.ograin
  dgrain : u.dgrain = t.dgrain
  isCum : u.isCum = t.isCum
  isPattern : u.isPattern = t.isPattern
  isAdditive : u.isAdditive = t.isAdditive

theorem SameFrame.refl {t : Tri K} (wf : WF t) : SameFrame t t :=
  ⟨wf, rfl, rfl, rfl, rfl, rfl, rfl, rfl, rfl, rfl, rfl, rfl⟩

theorem SameFrame.trans {a b c : Tri K} (h : SameFrame a b) (h' : SameFrame b c) :
    SameFrame a c :=
  ⟨h.wf, h.kdims.trans h'.kdims, h.vdims.trans h'.vdims, h.odims.trans h'.odims,
    h.ddims.trans h'.ddims, h.isVal.trans h'.isVal, h.keyLabels.trans h'.keyLabels,
    h.ograin.trans h'.ograin, h.dgrain.trans h'.dgrain, h.isCum.trans h'.isCum,
    h.isPattern.trans h'.isPattern, h.isAdditive.trans h'.isAdditive⟩

theorem SameFrame.dim {a b : Tri K} (h : SameFrame a b) (wb : WF b) (ax : Axis) :
    a.values.dim ax = b.values.dim ax := by
  obtain ⟨a0, a1, a2, a3⟩ := h.wf
  obtain ⟨b0, b1, b2, b3⟩ := wb
  cases ax <;> simp only [Arr.dim]
  · rw [a0, b0, h.kdims]
  · rw [a1, b1, h.vdims]
  · rw [a2, b2, h.odims]
  · rw [a3, b3, h.ddims]

private theorem noAmount_mul_zero (x : Num K) : NoAmount (x * 0) := by
  cases x <;> simp [NoAmount, Num.zero_def, Num.pinf_mul_fin, Num.ninf_mul_fin, Num.infMul]

/-- Conditions under which the axis can be shifted at all. -/
structure Shiftable (t : Tri K) (ax : Axis) : Prop where
  wf : WF t
  axis : ax = .origin ∨ (ax = .development ∧ t.isVal = false ∧ t.isPattern = false)
  two : 2 ≤ t.axisLen ax
  nodup : AxisNodup t ax
  devs : t.isVal = true ∨ 0 < t.ddims.length

private theorem Shiftable.frame {t u : Tri K} {ax : Axis} (h : Shiftable t ax)
    (f : SameFrame u t) : Shiftable u ax := by
  refine ⟨f.wf, ?_, ?_, ?_, ?_⟩
  · rw [f.isVal, f.isPattern]; exact h.axis
  · have := h.two
    cases ax <;> simp only [axisLen, f.kdims, f.vdims, f.odims, f.ddims] at this ⊢ <;> exact this
  · have := h.nodup
    cases ax <;> simp only [AxisNodup, f.kdims, f.vdims, f.odims, f.ddims] at this ⊢ <;> exact this
  · rw [f.isVal, f.ddims]; exact h.devs

/-- A piece of `t` along `ax`: positions `l`, labels `L`, array `A`. -/
private def piece (t : Tri K) (ax : Axis) (l : List Nat) (L : List Int) (A : Arr K) (v : Int) :
    Tri K :=
  match ax with
  | .origin => { axPart t .origin l v with
      values := A
      odims := L }
  | _ => { axPart t .development l v with
      values := A
      ddims := L }

private theorem join {t : Tri K} {ax : Axis} (h : Shiftable t ax) {la lb : List Nat}
    {La Lb : List Int} {A B : Arr K} {va vb : Int} (hL : La ++ Lb = t.dateLabels ax)
    (ha : la.length = La.length) (hb : lb.length = Lb.length)
    (hA : ∀ x, A.dim x = (axSel t ax la x).length) (hB : ∀ x, B.dim x = (axSel t ax lb x).length) :
    ∃ u, concat ax [piece t ax la La A va, piece t ax lb Lb B vb] = .ok u ∧ SameFrame u t ∧
      u.vd = max va vb ∧
      (∀ p : Pos, p ax < La.length → u.values.cell p = A.cell p) ∧
      ∀ p : Pos, ∀ j < Lb.length, p ax = La.length + j → u.values.cell p = B.cell (p.set ax j) := by
  obtain ⟨w0, w1, w2, w3⟩ := h.wf
  have hA0 := hA .index; have hA1 := hA .columns; have hA2 := hA .origin
  have hA3 := hA .development
  have hB0 := hB .index; have hB1 := hB .columns; have hB2 := hB .origin
  have hB3 := hB .development
  simp only [Arr.dim] at hA0 hA1 hA2 hA3 hB0 hB1 hB2 hB3
  have ka := axPart_labels h.wf ax la va
  have kb := axPart_labels h.wf ax lb vb
  have nd := h.nodup
  rcases h.axis with rfl | ⟨rfl, hv, hp⟩
  · simp only [axSel, reduceCtorEq, if_false, if_true, List.length_range, Arr.dim] at hA0 hA1 hA2 hA3
    simp only [axSel, reduceCtorEq, if_false, if_true, List.length_range, Arr.dim] at hB0 hB1 hB2 hB3
    have a0 := ka.1 (by simp); have a1 := ka.2.1 (by simp); have a3 := ka.2.2.2 (by simp)
    have b0 := kb.1 (by simp); have b1 := kb.2.1 (by simp); have b3 := kb.2.2.2 (by simp)
    obtain ⟨u, u1, u2, u3, u4, u5, u6, u7, u8, u9, u10, u11, u12, u13, u14, u15⟩ :=
      concat_two (ax := .origin) (a := piece t .origin la La A va)
      (b := piece t .origin lb Lb B vb)
      ⟨by simp [piece, a0, hA0, w0], by simp [piece, a1, hA1, w1], by simp [piece, hA2, ha],
        by simp [piece, a3, hA3, w3]⟩
      ⟨by simp [piece, b0, hB0, w0], by simp [piece, b1, hB1, w1], by simp [piece, hB2, hb],
        by simp [piece, b3, hB3, w3]⟩
      ⟨fun _ => by simp [piece, a0, b0], by simp, fun _ => ⟨by simp [piece, a3, b3], rfl⟩⟩
      rfl (fun _ => by simp [piece, a1, b1])
      (by simpa [Distinct, piece, hL, dateLabels] using show t.odims.Nodup from nd)
    have dA : (piece t .origin la La A va).values.dim .origin = La.length := by
      simp [piece, Arr.dim, hA2, ha]
    have dB : (piece t .origin lb Lb B vb).values.dim .origin = Lb.length := by
      simp [piece, Arr.dim, hB2, hb]
    refine ⟨u, u1, ⟨u2, ?_, ?_, ?_, ?_, ?_, ?_, ?_, ?_, ?_, ?_, ?_⟩, u6, ?_, ?_⟩
    · rw [← u4.1 (by simp)]; simp [piece, a0]
    · rw [u5 (by simp)]; simp [piece, a1]
    · rw [u3.2.2.1 rfl]; simpa [piece, dateLabels] using hL
    · rw [← (u4.2.2 (by simp)).1]; simp [piece, a3]
    · rw [u7]; rfl
    · rw [u8]; rfl
    · rw [u9]; rfl
    · rw [u10]; rfl
    · rw [u11]; rfl
    · rw [u12]; rfl
    · rw [u13]; rfl
    · intro p hp'
      exact u14 p (by rw [dA]; exact hp')
    · intro p j hj e
      exact u15 p j (by rw [dB]; exact hj) (by rw [dA]; exact e)
  · simp only [axSel, reduceCtorEq, if_false, if_true, List.length_range, Arr.dim] at hA0 hA1 hA2 hA3
    simp only [axSel, reduceCtorEq, if_false, if_true, List.length_range, Arr.dim] at hB0 hB1 hB2 hB3
    have a0 := ka.1 (by simp); have a1 := ka.2.1 (by simp); have a3 := ka.2.2.1 (by simp)
    have b0 := kb.1 (by simp); have b1 := kb.2.1 (by simp); have b3 := kb.2.2.1 (by simp)
    obtain ⟨u, u1, u2, u3, u4, u5, u6, u7, u8, u9, u10, u11, u12, u13, u14, u15⟩ :=
      concat_two (ax := .development) (a := piece t .development la La A va)
      (b := piece t .development lb Lb B vb)
      ⟨by simp [piece, a0, hA0, w0], by simp [piece, a1, hA1, w1], by simp [piece, a3, hA2, w2],
        by simp [piece, hA3, ha]⟩
      ⟨by simp [piece, b0, hB0, w0], by simp [piece, b1, hB1, w1], by simp [piece, b3, hB2, w2],
        by simp [piece, hB3, hb]⟩
      ⟨fun _ => by simp [piece, a0, b0], fun _ => by simp [piece, a3, b3], by simp⟩
      rfl (fun _ => by simp [piece, a1, b1])
      (by
        refine ⟨by simpa [piece, hL, dateLabels] using show t.ddims.Nodup from nd, ?_⟩
        intro s hs s' hs'
        simp only [List.mem_cons, List.not_mem_nil, or_false] at hs hs'
        rcases hs with rfl | rfl <;> rcases hs' with rfl | rfl <;> rfl)
    have dA : (piece t .development la La A va).values.dim .development = La.length := by
      simp [piece, Arr.dim, hA3, ha]
    have dB : (piece t .development lb Lb B vb).values.dim .development = Lb.length := by
      simp [piece, Arr.dim, hB3, hb]
    refine ⟨u, u1, ⟨u2, ?_, ?_, ?_, ?_, ?_, ?_, ?_, ?_, ?_, ?_, ?_⟩, u6, ?_, ?_⟩
    · rw [← u4.1 (by simp)]; simp [piece, a0]
    · rw [u5 (by simp)]; simp [piece, a1]
    · rw [← u4.2.1 (by simp)]; simp [piece, a3]
    · rw [u3.2.2.2 rfl]; simpa [piece, dateLabels] using hL
    · rw [u7]; rfl
    · rw [u8]; rfl
    · rw [u9]; rfl
    · rw [u10]; rfl
    · rw [u11]; rfl
    · rw [u12]; rfl
    · rw [u13]; rfl
    · intro p hp'
      exact u14 p (by rw [dA]; exact hp')
    · intro p j hj e
      exact u15 p j (by rw [dB]; exact hj) (by rw [dA]; exact e)

private theorem relabel_eq {t : Tri K} {ax : Axis} (hax : ax = .origin ∨ ax = .development)
    (l : List Nat) (L : List Int) (v : Int) (hl : l.length = L.length) :
    (axPart t ax l v).relabelAxis ax L = .ok (piece t ax l L (axPart t ax l v).values v) := by
  rcases hax with rfl | rfl <;>
    simp [relabelAxis, piece, axPart, picked, axSel, hl]

private theorem mul0_eq {t : Tri K} {ax : Axis} (hax : ax = .origin ∨ ax = .development)
    (l : List Nat) (L : List Int) (v : Int) (hL : l.map ((t.dateLabels ax).getD · 0) = L) :
    (axPart t ax l v).mulArr (Arr.scalar 0) =
      .ok (piece t ax l L ((axPart t ax l v).values.map (· * 0)) v) := by
  unfold mulArr zipArr
  rw [Arr.zip_scalar]
  rcases hax with rfl | rfl <;> subst hL <;> rfl

theorem selS_from_last (n : Nat) (h : 0 < n) : SelS n (.from (-1)) [n - 1] := by
  have h : SafePos n ⟨some (-1), none, none⟩ := by
    refine ⟨by simp, by simp, by simp⟩
  obtain ⟨s, h1, h2⟩ := normalize_pos h
  refine ⟨_, s, h1, rfl, ?_⟩
  rw [h2]
  have h : ¬ ((1 : Int) < 0) := by omega
  have h' : ((-1 : Int) < 0) := by omega
  simp only [PySlice.positions, PySlice.indices, Option.getD_none, one_ne_zero, if_false, h, h',
    if_true]
  have e : max (-1 + (n : Int)) 0 = ((n - 1 : Nat) : Int) := by omega
  rw [e, pyRange_one]
  have e' : ((n : Int) - ((n - 1 : Nat) : Int)).toNat = 1 := by omega
  rw [e']
  simp

private theorem map_shift (l : List Int) (h2 : 2 ≤ l.length) :
    l.dropLast ++ [l.getD (l.length - 1) 0] = l := by
  have hne : l ≠ [] := by intro e; rw [e] at h2; simp at h2
  conv_rhs => rw [← List.dropLast_append_getLast hne]
  congr 2
  rw [List.getLast_eq_getElem, List.getD_eq_getElem]

private theorem map_shift' (l : List Int) (h2 : 2 ≤ l.length) :
    [l.getD 0 0] ++ l.tail = l := by
  cases l with
  | nil => simp at h2
  | cons x l => simp

private theorem Shiftable.len {t : Tri K} {ax : Axis} (h : Shiftable t ax) :
    (t.dateLabels ax).length = t.values.dim ax ∧ 2 ≤ t.values.dim ax := by
  obtain ⟨w0, w1, w2, w3⟩ := h.wf
  have h2 := h.two
  rcases h.axis with rfl | ⟨rfl, -, -⟩ <;> simp_all [dateLabels, Arr.dim, axisLen]

private theorem left_eq {t : Tri K} {ax : Axis} (h : Shiftable t ax) :
    ∃ u, t.shiftLeft ax = .ok u ∧ SameFrame u t ∧
      u.vd = max (axVd t ax ((List.range (t.values.dim ax - 1)).map (· + 1)))
        (axVd t ax [t.values.dim ax - 1]) ∧
      ∀ p : Pos, (∀ x, p x < t.values.dim x) →
        (p ax + 1 < t.values.dim ax → u.values.cell p = t.values.cell (p.set ax (p ax + 1))) ∧
        (p ax + 1 = t.values.dim ax → NoAmount (u.values.cell p)) := by
  obtain ⟨hl, h2⟩ := h.len
  have hax : ax = .origin ∨ ax = .development := h.axis.imp_right And.left
  set n := t.values.dim ax with hn
  have hd' : t.isVal = true ∨ 0 < t.values.d3 := by rw [h.wf.2.2.2]; exact h.devs
  have ea := ilocAx_sel (t := t) (selS_from n 1)
    (List.ne_nil_of_mem (a := 1) (by simp; omega)) hd'
  have eb := ilocAx_sel (t := t) (selS_from_last n (by omega)) (by simp) hd'
  obtain ⟨u, u1, u2, u3, u4, u5⟩ := join h (la := (List.range (n - 1)).map (· + 1)) (lb := [n - 1])
    (La := (t.dateLabels ax).dropLast) (Lb := [(t.dateLabels ax).getD (n - 1) 0])
    (A := (axPart t ax ((List.range (n - 1)).map (· + 1)) (axVd t ax _)).values)
    (B := (axPart t ax [n - 1] (axVd t ax _)).values.map (· * 0))
    (va := axVd t ax ((List.range (n - 1)).map (· + 1))) (vb := axVd t ax [n - 1])
    (by rw [← hl]; exact map_shift _ (by omega)) (by simp [hl]) (by simp)
    (fun x => axPart_dim _ _ _ _ _) (fun x => by
      rw [← axPart_dim t ax [n - 1] (axVd t ax [n - 1])]; cases x <;> rfl)
  refine ⟨u, ?_, u2, u3, ?_⟩
  · unfold shiftLeft
    have e1 : (.from 1 : Key) = .from ((1 : Nat) : Int) := rfl
    rw [e1, ea, eb]
    simp only [bind, Except.bind]
    rw [relabel_eq hax _ _ _ (by simp [hl]),
      mul0_eq hax _ [(t.dateLabels ax).getD (n - 1) 0] _ (by simp)]
    exact u1
  · intro p hp
    refine ⟨fun h1 => ?_, fun h1 => ?_⟩
    · rw [u4 p (by simp; omega), axPart_cell]
      congr 1
      funext b
      by_cases hb : b = ax
      · subst hb
        simp [axSel, Pos.set]
        rw [List.getElem?_range (by omega)]; simp
      · simp [axSel, Pos.set, hb, hp b]
    · have := u5 p 0 (by simp) (by simp; omega)
      rw [this]
      exact noAmount_mul_zero _

private theorem right_eq {t : Tri K} {ax : Axis} (h : Shiftable t ax) :
    ∃ u, t.shiftRight ax = .ok u ∧ SameFrame u t ∧
      u.vd = max (axVd t ax (List.range 1)) (axVd t ax (List.range (t.values.dim ax - 1))) ∧
      ∀ p : Pos, (∀ x, p x < t.values.dim x) →
        (1 ≤ p ax → u.values.cell p = t.values.cell (p.set ax (p ax - 1))) ∧
        (p ax = 0 → NoAmount (u.values.cell p)) := by
  obtain ⟨hl, h2⟩ := h.len
  have hax : ax = .origin ∨ ax = .development := h.axis.imp_right And.left
  set n := t.values.dim ax with hn
  have hd' : t.isVal = true ∨ 0 < t.values.d3 := by rw [h.wf.2.2.2]; exact h.devs
  have ea := ilocAx_sel (t := t) (selS_upto n 1 (by omega))
    (List.ne_nil_of_mem (a := 0) (by simp)) hd'
  have eb := ilocAx_sel (t := t) (selS_upto_neg n 1 (by omega) (by simp))
    (List.ne_nil_of_mem (a := 0) (by simp; omega)) hd'
  obtain ⟨u, u1, u2, u3, u4, u5⟩ := join h (la := List.range 1) (lb := List.range (n - 1))
    (La := [(t.dateLabels ax).getD 0 0]) (Lb := (t.dateLabels ax).tail)
    (A := (axPart t ax (List.range 1) (axVd t ax _)).values.map (· * 0))
    (B := (axPart t ax (List.range (n - 1)) (axVd t ax _)).values)
    (va := axVd t ax (List.range 1)) (vb := axVd t ax (List.range (n - 1)))
    (by exact map_shift' _ (by omega)) (by simp) (by simp [hl])
    (fun x => by
      rw [← axPart_dim t ax (List.range 1) (axVd t ax (List.range 1))]; cases x <;> rfl)
    (fun x => axPart_dim _ _ _ _ _) 
  refine ⟨u, ?_, u2, u3, ?_⟩
  · unfold shiftRight
    have e1 : (.upto 1 : Key) = .upto ((1 : Nat) : Int) := rfl
    have e2 : (.upto (-1) : Key) = .upto (-((1 : Nat) : Int)) := rfl
    rw [e1, e2, ea, eb]
    simp only [bind, Except.bind]
    rw [relabel_eq hax _ _ _ (by simp [hl]),
      mul0_eq hax _ [(t.dateLabels ax).getD 0 0] _ (by simp)]
    exact u1
  · intro p hp
    refine ⟨fun h1 => ?_, fun h1 => ?_⟩
    · rw [u5 p (p ax - 1) (by have := hp ax; simp; omega) (by simp; omega), axPart_cell]
      congr 1
      funext b
      by_cases hb : b = ax
      · subst hb
        have := hp b
        simp [axSel, Pos.set]
        rw [List.getElem?_range (by omega)]; simp
      · simp [axSel, Pos.set, hb, hp b]
    · rw [u4 p (by simp; omega)]
      exact noAmount_mul_zero _

private theorem SameFrame.valuation {u t : Tri K} (h : SameFrame u t) (hv : u.vd = t.vd)
    (o d : Nat) : u.valuation o d = t.valuation o d := by
  unfold Tri.valuation
  simp only [h.isVal, h.odims, h.ddims, hv]

private theorem SameFrame.ordered {u t : Tri K} (h : SameFrame u t) (hv : u.vd = t.vd)
    (ho : Ordered t) : Ordered u := by
  intro hi
  rw [h.odims, h.ddims, hv]
  exact ho (by rw [← h.isVal]; exact hi)

/-- The valuation date of the triangle is that of one of its cells, and that cell is at a position
of axis `ax` with property `P`. -/
def Dates (t : Tri K) (ax : Axis) (P : Nat → Prop) : Prop :=
  Ordered t ∧ ∃ p : Pos, (∀ x, p x < t.values.dim x) ∧ P (p ax) ∧
    t.vd ≤ t.valuation (p .origin) (p .development)

private theorem mem_axSel {t : Tri K} {ax : Axis} {l : List Nat} {p : Pos}
    (hp : ∀ x, p x < t.values.dim x) (h : p ax ∈ l) (x : Axis) : p x ∈ axSel t ax l x := by
  unfold axSel
  split_ifs with hx
  · rw [hx]; exact h
  · simpa using hp x

private theorem steps_left {ax : Axis} (k : Nat) : ∀ {t : Tri K}, Shiftable t ax →
    ∃ u, shiftSteps (fun t => t.shiftLeft ax) k t = .ok u ∧ SameFrame u t ∧ u.vd ≤ t.vd ∧
      (Dates t ax (0 < ·) → u.vd = t.vd) ∧
      ∀ p : Pos, (∀ x, p x < t.values.dim x) →
        (p ax + k < t.values.dim ax → u.values.cell p = t.values.cell (p.set ax (p ax + k))) ∧
        (t.values.dim ax ≤ p ax + k → NoAmount (u.values.cell p)) := by
  induction k with
  | zero =>
    intro t h
    refine ⟨t, rfl, .refl h.wf, le_refl _, fun _ => rfl, ?_⟩
    intro p hp
    refine ⟨fun _ => ?_, fun h1 => by have := hp ax; omega⟩
    congr 1
    funext b
    by_cases hb : b = ax
    · subst hb; simp [Pos.set]
    · simp [Pos.set, hb]
  | succ k ih =>
    intro t h
    obtain ⟨a, a1, a2, a3, a4⟩ := left_eq h
    obtain ⟨u, u1, u2, u3, u4, u5⟩ := ih (h.frame a2)
    have hd : ∀ x, a.values.dim x = t.values.dim x := fun x => a2.dim h.wf x
    refine ⟨u, ?_, u2.trans a2, ?_, ?_, ?_⟩
    · simp only [shiftSteps, a1, bind, Except.bind]
      exact u1
    · refine le_trans u3 ?_
      rw [a3]
      exact max_le (axVd_le _ _ _) (axVd_le _ _ _)
    · rintro ⟨ho, p, hp, h0, hv⟩
      have ea : a.vd = t.vd := by
        have h2 := h.len.2
        have l1 := axVd_le t ax ((List.range (t.values.dim ax - 1)).map (· + 1))
        have l2 := axVd_le t ax [t.values.dim ax - 1]
        rw [a3]
        have e := axVd_eq h.wf ho (ax := ax) (l := (List.range (t.values.dim ax - 1)).map (· + 1))
            (by
              rw [List.pairwise_map]
              exact List.pairwise_lt_range.imp (by intro a b h; omega))
            (by intro j hj; simp at hj; omega)
            (o := p .origin) (d := p .development)
            (mem_axSel hp (by
              have := hp ax
              simp; exact ⟨p ax - 1, by omega, by omega⟩) _)
            (mem_axSel hp (by
              have := hp ax
              simp; exact ⟨p ax - 1, by omega, by omega⟩) _) hv
        rw [e]; exact max_eq_left l2
      rw [u4 ⟨a2.ordered ea ho, p, fun x => by rw [hd]; exact hp x, h0, by
        rw [a2.valuation ea, ea]; exact hv⟩, ea]
    · intro p hp
      obtain ⟨c1, c2⟩ := u5 p (fun x => by rw [hd]; exact hp x)
      rw [hd] at c1 c2
      refine ⟨fun h1 => ?_, fun h1 => ?_⟩
      · rw [c1 (by omega)]
        have hq : ∀ x, (p.set ax (p ax + k)) x < t.values.dim x := by
          intro x
          unfold Pos.set
          split_ifs with hx
          · subst hx; omega
          · exact hp x
        have := (a4 _ hq).1 (by simp [Pos.set]; omega)
        rw [this]
        congr 1
        funext b
        by_cases hb : b = ax
        · subst hb; simp [Pos.set]; omega
        · simp [Pos.set, hb]
      · rcases Nat.lt_or_ge (p ax + k) (t.values.dim ax) with h3 | h3
        · rw [c1 h3]
          have hq : ∀ x, (p.set ax (p ax + k)) x < t.values.dim x := by
            intro x
            unfold Pos.set
            split_ifs with hx
            · subst hx; omega
            · exact hp x
          exact (a4 _ hq).2 (by simp [Pos.set]; omega)
        · exact c2 h3

private theorem steps_right {ax : Axis} (k : Nat) : ∀ {t : Tri K}, Shiftable t ax →
    ∃ u, shiftSteps (fun t => t.shiftRight ax) k t = .ok u ∧ SameFrame u t ∧ u.vd ≤ t.vd ∧
      (Dates t ax (· + 1 < t.values.dim ax) → u.vd = t.vd) ∧
      ∀ p : Pos, (∀ x, p x < t.values.dim x) →
        (k ≤ p ax → u.values.cell p = t.values.cell (p.set ax (p ax - k))) ∧
        (p ax < k → NoAmount (u.values.cell p)) := by
  induction k with
  | zero =>
    intro t h
    refine ⟨t, rfl, .refl h.wf, le_refl _, fun _ => rfl, ?_⟩
    intro p hp
    refine ⟨fun _ => ?_, fun h1 => by omega⟩
    congr 1
    funext b
    by_cases hb : b = ax
    · subst hb; simp [Pos.set]
    · simp [Pos.set, hb]
  | succ k ih =>
    intro t h
    obtain ⟨a, a1, a2, a3, a4⟩ := right_eq h
    obtain ⟨u, u1, u2, u3, u4, u5⟩ := ih (h.frame a2)
    have hd : ∀ x, a.values.dim x = t.values.dim x := fun x => a2.dim h.wf x
    refine ⟨u, ?_, u2.trans a2, ?_, ?_, ?_⟩
    · simp only [shiftSteps, a1, bind, Except.bind]
      exact u1
    · refine le_trans u3 ?_
      rw [a3]
      exact max_le (axVd_le _ _ _) (axVd_le _ _ _)
    · rintro ⟨ho, p, hp, h0, hv⟩
      have ea : a.vd = t.vd := by
        have h2 := h.len.2
        have l1 := axVd_le t ax (List.range 1)
        rw [a3]
        have e := axVd_eq h.wf ho (ax := ax) (l := List.range (t.values.dim ax - 1))
            List.pairwise_lt_range
            (by intro j hj; simp at hj; omega)
            (o := p .origin) (d := p .development)
            (mem_axSel hp (by simp; omega) _) (mem_axSel hp (by simp; omega) _) hv
        rw [e]; exact max_eq_right l1
      rw [u4 ⟨a2.ordered ea ho, p, fun x => by rw [hd]; exact hp x, by rw [hd]; exact h0, by
        rw [a2.valuation ea, ea]; exact hv⟩, ea]
    · intro p hp
      obtain ⟨c1, c2⟩ := u5 p (fun x => by rw [hd]; exact hp x)
      refine ⟨fun h1 => ?_, fun h1 => ?_⟩
      · rw [c1 (by omega)]
        have hq : ∀ x, (p.set ax (p ax - k)) x < t.values.dim x := by
          intro x
          have := hp x
          unfold Pos.set
          split_ifs with hx
          · subst hx; omega
          · exact hp x
        have := (a4 _ hq).1 (by simp [Pos.set]; omega)
        rw [this]
        congr 1
        funext b
        by_cases hb : b = ax
        · subst hb; simp [Pos.set]; omega
        · simp [Pos.set, hb]
      · rcases Nat.lt_or_ge (p ax) k with h3 | h3
        · exact c2 h3
        · rw [c1 h3]
          have hq : ∀ x, (p.set ax (p ax - k)) x < t.values.dim x := by
            intro x
            have := hp x
            unfold Pos.set
            split_ifs with hx
            · subst hx; omega
            · exact hp x
          exact (a4 _ hq).2 (by simp [Pos.set]; omega)

/-- `shift` reaches the recursion. -/
private theorem shift_pos {t : Tri K} {ax : Axis} (h : Shiftable t ax) (k : Nat) :
    t.shift k ax = shiftSteps (fun t => t.shiftLeft ax) k t := by
  unfold shift
  rcases Nat.eq_zero_or_pos k with rfl | hk
  · rcases h.axis with rfl | ⟨rfl, hv, hp⟩ <;> simp [shiftSteps]
  · have h0 : (k : Int) ≠ 0 := by omega
    have h1 : (k : Int) > 0 := by omega
    have h2 : k ≠ 0 := by omega
    rcases h.axis with rfl | ⟨rfl, hv, hp⟩
    · simp [h2, hk]
    · simp [h2, hk, hv, hp]

private theorem shift_neg {t : Tri K} {ax : Axis} (h : Shiftable t ax) (k : Nat) :
    t.shift (-(k : Int)) ax = shiftSteps (fun t => t.shiftRight ax) k t := by
  unfold shift
  rcases Nat.eq_zero_or_pos k with rfl | hk
  · rcases h.axis with rfl | ⟨rfl, hv, hp⟩ <;> simp [shiftSteps]
  · have h0 : -(k : Int) ≠ 0 := by omega
    have h1 : ¬ (-(k : Int) > 0) := by omega
    rcases h.axis with rfl | ⟨rfl, hv, hp⟩
    · simp only [h0, h1]; simp
    · simp only [h0, h1, hv, hp]; simp

/-- **C23**, towards the start.  The missing part is the development axis of valuation triangles
and patterns, whose labels are strings. -/
theorem C23_forward_partial {t : Tri K} {ax : Axis} (h : Shiftable t ax) (k : Nat) :
    ∃ u, t.shift k ax = .ok u ∧ SameFrame u t ∧ u.vd ≤ t.vd ∧
      (Dates t ax (0 < ·) → u.vd = t.vd) ∧
      ∀ p : Pos, (∀ x, p x < t.values.dim x) →
        (p ax + k < t.values.dim ax → u.values.cell p = t.values.cell (p.set ax (p ax + k))) ∧
        (t.values.dim ax ≤ p ax + k → NoAmount (u.values.cell p)) := by
  rw [shift_pos h]
  exact steps_left k h

/-- **C23**, towards the end. -/
theorem C23_backward_partial {t : Tri K} {ax : Axis} (h : Shiftable t ax) (k : Nat) :
    ∃ u, t.shift (-(k : Int)) ax = .ok u ∧ SameFrame u t ∧ u.vd ≤ t.vd ∧
      (Dates t ax (· + 1 < t.values.dim ax) → u.vd = t.vd) ∧
      ∀ p : Pos, (∀ x, p x < t.values.dim x) →
        (k ≤ p ax → u.values.cell p = t.values.cell (p.set ax (p ax - k))) ∧
        (p ax < k → NoAmount (u.values.cell p)) := by
  rw [shift_neg h]
  exact steps_right k h

/-- **C23**: `shift(0)` is the identity. -/
theorem C23_zero (t : Tri K) {ax : Axis} (h : ax = .origin ∨ ax = .development) :
    t.shift 0 ax = .ok t := by
  unfold shift
  rcases h with rfl | rfl <;> simp

/-- **C23**: the index and column axes are rejected. -/
theorem C23_axes (t : Tri K) (k : Int) {ax : Axis} (h : ax = .index ∨ ax = .columns) :
    t.shift k ax = .error .attributeError := by
  unfold shift
  rw [if_pos h]

example : Shiftable (Ex.tri3 (some true) Ex.cum3) .development ∧
    Shiftable (Ex.tri3 (some true) Ex.cum3) .origin ∧
    Dates (Ex.tri3 (some true) Ex.cum3) .development (0 < ·) := by
  refine ⟨⟨by decide, Or.inr ⟨rfl, rfl, rfl⟩, by decide, by simp [AxisNodup]; decide, by decide⟩,
    ⟨by decide, Or.inl rfl, by decide, by simp [AxisNodup]; decide, by decide⟩, ?_⟩
  refine ⟨(Ex.proper_tri3 _).ordered, fun x => match x with
    | .origin => 1
    | .development => 1
    | _ => 0, ?_, by decide, by decide⟩
  intro x; cases x <;> decide

end Tri
end CL
