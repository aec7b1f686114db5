import Verif.Lemmas.Along
import Verif.Lemmas.AxSel
import Verif.Lemmas.Convert
import Verif.Spec.Examples

set_option linter.unusedSectionVars false

/-! # C20: concatenation -/

namespace CL
namespace Tri
variable {K : Type} [Field K] [LinearOrder K] [IsStrictOrderedRing K]

/-- The two triangles agree on the labels of index, origin and development, except possibly on
axis `ax`. -/
def AgreeBut (ax : Axis) (s t : Tri K) : Prop :=
  (ax ≠ .index → t.kdims = s.kdims) ∧ (ax ≠ .origin → t.odims = s.odims) ∧
  (ax ≠ .development → t.ddims = s.ddims ∧ t.isVal = s.isVal)

/-- The labels of the concatenated axis are all different. -/
def Distinct (ax : Axis) (objs : List (Tri K)) : Prop :=
  match ax with
  | .index => (objs.flatMap Tri.kdims).Nodup
  | .columns => (objs.flatMap Tri.vdims).Nodup
  | .origin => (objs.flatMap Tri.odims).Nodup
  | .development => (objs.flatMap Tri.ddims).Nodup ∧
      ∀ s ∈ objs, ∀ t ∈ objs, s.isVal = t.isVal

/-- `u` has the labels of the parts, one after the other, on the concatenated axis. -/
def Labels (ax : Axis) (objs : List (Tri K)) (u : Tri K) : Prop :=
  (ax = .index → u.kdims = objs.flatMap Tri.kdims) ∧
  (ax = .columns → u.vdims = objs.flatMap Tri.vdims) ∧
  (ax = .origin → u.odims = objs.flatMap Tri.odims) ∧
  (ax = .development → u.ddims = objs.flatMap Tri.ddims) 

private theorem check_ok {ax : Axis} {t0 : Tri K} {objs : List (Tri K)} (h0 : t0 ∈ objs) :
    concatCheck ax t0 objs = .ok () ↔ (∀ t ∈ objs, AgreeBut ax t0 t) ∧ Distinct ax objs := by
  unfold concatCheck
  by_cases h1 : ax ≠ .index ∧ objs.any (fun t => decide (t.kdims ≠ t0.kdims)) = true
  · rw [if_pos h1]
    refine ⟨(by intro h; cases h), ?_⟩
    rintro ⟨h, -⟩
    obtain ⟨t, ht, hne⟩ := List.any_eq_true.1 h1.2
    rw [(h t ht).1 h1.1] at hne
    simp at hne
  · rw [if_neg h1]
    by_cases h2 : ax ≠ .origin ∧ objs.any (fun t => decide (t.odims ≠ t0.odims)) = true
    · rw [if_pos h2]
      refine ⟨(by intro h; cases h), ?_⟩
      rintro ⟨h, -⟩
      obtain ⟨t, ht, hne⟩ := List.any_eq_true.1 h2.2
      rw [(h t ht).2.1 h2.1] at hne
      simp at hne
    · rw [if_neg h2]
      by_cases h3 : ax ≠ .development ∧
          objs.any (fun t => decide (t.ddims ≠ t0.ddims) || t.isVal != t0.isVal) = true
      · rw [if_pos h3]
        refine ⟨(by intro h; cases h), ?_⟩
        rintro ⟨h, -⟩
        obtain ⟨t, ht, hne⟩ := List.any_eq_true.1 h3.2
        rw [((h t ht).2.2 h3.1).1, ((h t ht).2.2 h3.1).2] at hne
        simp at hne
      · rw [if_neg h3]
        have hag : ∀ t ∈ objs, AgreeBut ax t0 t := by
          intro t ht
          refine ⟨?_, ?_, ?_⟩
          · intro hx; by_contra hne
            exact h1 ⟨hx, List.any_eq_true.2 ⟨t, ht, by simpa using hne⟩⟩
          · intro hx; by_contra hne
            exact h2 ⟨hx, List.any_eq_true.2 ⟨t, ht, by simpa using hne⟩⟩
          · intro hx; by_contra hne
            refine h3 ⟨hx, List.any_eq_true.2 ⟨t, ht, ?_⟩⟩
            by_cases e : t.ddims = t0.ddims
            · have : t.isVal ≠ t0.isVal := fun e' => hne ⟨e, e'⟩
              simp [this]
            · simp [e]
        cases ax with
        | index =>
          simp only [Distinct]
          split_ifs with h
          · exact ⟨fun _ => ⟨hag, h⟩, fun _ => rfl⟩
          · exact ⟨(by intro h'; cases h'), fun h' => absurd h'.2 h⟩
        | columns =>
          simp only [Distinct]
          split_ifs with h
          · exact ⟨fun _ => ⟨hag, h⟩, fun _ => rfl⟩
          · exact ⟨(by intro h'; cases h'), fun h' => absurd h'.2 h⟩
        | origin =>
          simp only [Distinct]
          split_ifs with h
          · exact ⟨fun _ => ⟨hag, h⟩, fun _ => rfl⟩
          · exact ⟨(by intro h'; cases h'), fun h' => absurd h'.2 h⟩
        | development =>
          simp only [Distinct]
          by_cases hv : objs.any (fun t => t.isVal != t0.isVal) = true
          · rw [if_pos hv]
            refine ⟨(by intro h; cases h), ?_⟩
            rintro ⟨-, -, h⟩
            obtain ⟨t, ht, hne⟩ := List.any_eq_true.1 hv
            rw [h t ht t0 h0] at hne
            simp at hne
          · rw [if_neg hv]
            have hv' : ∀ t ∈ objs, t.isVal = t0.isVal := by
              intro t ht; by_contra hne
              exact hv (List.any_eq_true.2 ⟨t, ht, by simpa using hne⟩)
            have hv'' : ∀ s ∈ objs, ∀ t ∈ objs, s.isVal = t.isVal := fun s hs t ht =>
              (hv' s hs).trans (hv' t ht).symm
            by_cases h : (objs.flatMap Tri.ddims).Nodup
            · rw [if_pos h]; exact ⟨fun _ => ⟨hag, h, hv''⟩, fun _ => rfl⟩
            · rw [if_neg h]
              exact ⟨by intro h'; (cases h'), fun h' => absurd h'.2.1 h⟩

/-- Filling columns leaves the other labels alone. -/
private theorem fill_labels {cols : List String} : ∀ {t u : Tri K}, fillColumns cols t = .ok u →
    u.kdims = t.kdims ∧ u.odims = t.odims ∧ u.ddims = t.ddims ∧ u.isVal = t.isVal := by
  induction cols with
  | nil => intro t u h; injection h with h; subst h; exact ⟨rfl, rfl, rfl, rfl⟩
  | cons c cols ih =>
    intro t u h
    unfold fillColumns at h
    rw [List.foldlM_cons] at h
    by_cases hc : t.vdims.contains c = true
    · simp only [hc, if_true] at h
      exact ih h
    · simp only [hc] at h
      cases ha : t.appendScalarCol c .nan with
      | error => rw [ha] at h; cases h
      | ok s =>
        rw [ha] at h
        have hs : s.kdims = t.kdims ∧ s.odims = t.odims ∧ s.ddims = t.ddims ∧
            s.isVal = t.isVal := by
          unfold appendScalarCol at ha
          cases h1 : t.iloc (.slc .all) (.int 0) (.slc .all) (.slc .all) with
          | error => rw [h1] at ha; cases ha
          | ok c0 =>
            rw [h1] at ha
            simp only [bind, Except.bind] at ha
            cases h2 : c0.mulArr (Arr.scalar 0) with
            | error => rw [h2] at ha; cases ha
            | ok c1 =>
              rw [h2] at ha
              simp only at ha
              cases h3 : c1.addArr (Arr.scalar .nan) with
              | error => rw [h3] at ha; cases ha
              | ok c2 =>
                rw [h3] at ha
                injection ha with ha
                subst ha
                exact ⟨rfl, rfl, rfl, rfl⟩
        obtain ⟨a1, a2, a3, a4⟩ := ih (t := s) (u := u) h
        obtain ⟨b1, b2, b3, b4⟩ := hs
        exact ⟨a1.trans b1, a2.trans b2, a3.trans b3, a4.trans b4⟩

private theorem mapM_forall2 {α β ε : Type} {f : α → Except ε β} : ∀ {l : List α} {m : List β},
    l.mapM f = .ok m → List.Forall₂ (fun a b => f a = .ok b) l m := by
  intro l
  induction l with
  | nil => intro m h; rw [List.mapM_nil] at h; injection h with h; subst h; exact .nil
  | cons a l ih =>
    intro m h
    rw [List.mapM_cons] at h
    cases ha : f a with
    | error => rw [ha] at h; cases h
    | ok b =>
      rw [ha] at h
      simp only [bind, Except.bind] at h
      cases hl : l.mapM f with
      | error => rw [hl] at h; cases h
      | ok m' =>
        rw [hl] at h
        injection h with h
        subst h
        exact .cons ha (ih hl)

private theorem flatMap_eq {α β : Type} (f : α → List β) {l m : List α}
    (h : List.Forall₂ (fun a b => f b = f a) l m) : l.flatMap f = m.flatMap f := by
  induction h with
  | nil => rfl
  | cons hab _ ih => simp only [List.flatMap_cons, hab, ih]

/-- What is left of `concat` once columns are aligned. -/
private theorem concat_eq {ax : Axis} {objs fs : List (Tri K)} {t0 : Tri K} {rest : List (Tri K)}
    (hne : objs ≠ []) (h : alignColumns ax objs = .ok fs) (hf : fs = t0 :: rest) :
    concat ax objs = (do
      concatCheck ax t0 fs
      let values ← rest.foldlM (fun a t => Arr.cat2 ax a t.values) t0.values
      let out := { t0 with values := values, vd := (rest.map Tri.vd).foldl max t0.vd }
      match ax with
      | .index => .ok { out with kdims := fs.flatMap Tri.kdims }
      | .columns => .ok { out with vdims := fs.flatMap Tri.vdims }
      | .origin => .ok { out with odims := fs.flatMap Tri.odims }
      | .development => .ok { out with ddims := fs.flatMap Tri.ddims }) := by
  subst hf
  match objs, hne, h with
  | a :: l, _, h =>
    simp only [concat, h, bind, Except.bind]
    rfl

/-- **C20, rejection.**  Whatever `concat` accepts has distinct labels on the concatenated axis
and identical labels on the other axes (the columns excepted). -/
theorem C20_rejects {ax : Axis} {objs : List (Tri K)} {u : Tri K} (h : concat ax objs = .ok u) :
    (∀ s ∈ objs, ∀ t ∈ objs, AgreeBut ax s t) ∧ Distinct ax objs := by
  have hne : objs ≠ [] := by rintro rfl; cases h
  cases ha : alignColumns ax objs with
  | error =>
    match objs, hne, ha with
    | a :: l, _, ha => simp only [concat, ha, bind, Except.bind] at h; cases h
  | ok fs =>
    -- the aligned triangles have the labels of the given ones
    have hrel : List.Forall₂ (fun a b : Tri K => b.kdims = a.kdims ∧ b.odims = a.odims ∧
        b.ddims = a.ddims ∧ b.isVal = a.isVal ∧ (ax = .columns → b.vdims = a.vdims)) objs fs := by
      unfold alignColumns at ha
      by_cases hc : ax = .columns
      · rw [if_pos hc] at ha
        injection ha with ha
        subst ha
        clear h hne
        induction objs with
        | nil => exact .nil
        | cons a l ih => exact .cons ⟨rfl, rfl, rfl, rfl, fun _ => rfl⟩ ih
      · rw [if_neg hc] at ha
        refine (mapM_forall2 ha).imp ?_
        intro a b hab
        obtain ⟨h1, h2, h3, h4⟩ := fill_labels hab
        exact ⟨h1, h2, h3, h4, fun h => absurd h hc⟩
    cases fs with
    | nil =>
      match objs, hne, hrel with
      | a :: l, _, hrel => cases hrel
    | cons t0 rest =>
      rw [concat_eq hne ha rfl] at h
      cases hk : concatCheck ax t0 (t0 :: rest) with
      | error => rw [hk] at h; cases h
      | ok x =>
        obtain ⟨h1, h2⟩ := (check_ok (by simp)).1 hk
        have hex : ∀ s ∈ objs, ∃ b ∈ t0 :: rest, b.kdims = s.kdims ∧ b.odims = s.odims ∧
            b.ddims = s.ddims ∧ b.isVal = s.isVal := by
          intro s hs
          obtain ⟨j, hj, rfl⟩ := List.getElem_of_mem hs
          have hl := hrel.length_eq
          have := (List.forall₂_iff_get.1 hrel).2 j hj (by omega)
          simp only [List.get_eq_getElem] at this
          exact ⟨_, List.getElem_mem (by omega), this.1, this.2.1, this.2.2.1, this.2.2.2.1⟩
        refine ⟨?_, ?_⟩
        · intro s hs t ht
          obtain ⟨b, hb, b1, b2, b3, b4⟩ := hex s hs
          obtain ⟨c, hc, c1, c2, c3, c4⟩ := hex t ht
          obtain ⟨p1, p2, p3⟩ := h1 b hb
          obtain ⟨q1, q2, q3⟩ := h1 c hc
          refine ⟨fun n => ?_, fun n => ?_, fun n => ⟨?_, ?_⟩⟩
          · rw [← c1, ← b1, p1 n, q1 n]
          · rw [← c2, ← b2, p2 n, q2 n]
          · rw [← c3, ← b3, (p3 n).1, (q3 n).1]
          · rw [← c4, ← b4, (p3 n).2, (q3 n).2]
        · have hfm : ∀ {β : Type} (f : Tri K → List β), List.Forall₂ (fun a b => f b = f a) objs
              (t0 :: rest) → objs.flatMap f = (t0 :: rest).flatMap f := fun f hF => flatMap_eq f hF
          cases ax with
          | index =>
            simp only [Distinct] at h2 ⊢
            rw [hfm Tri.kdims (hrel.imp fun _ _ h => h.1)]; exact h2
          | columns =>
            simp only [Distinct] at h2 ⊢
            rw [hfm Tri.vdims (hrel.imp fun _ _ h => h.2.2.2.2 rfl)]; exact h2
          | origin =>
            simp only [Distinct] at h2 ⊢
            rw [hfm Tri.odims (hrel.imp fun _ _ h => h.2.1)]; exact h2
          | development =>
            simp only [Distinct] at h2 ⊢
            rw [hfm Tri.ddims (hrel.imp fun _ _ h => h.2.2.1)]
            refine ⟨h2.1, ?_⟩
            intro s hs t ht
            obtain ⟨b, hb, -, -, -, b4⟩ := hex s hs
            obtain ⟨c, hc, -, -, -, c4⟩ := hex t ht
            rw [← b4, ← c4]
            exact h2.2 b hb c hc

/-- `u` holds the amounts of the parts one after the other along `ax`, each under its own labels. -/
structure Joined (ax : Axis) (objs : List (Tri K)) (u : Tri K) : Prop where
  wf : WF u
  labels : Labels ax objs u
  agree : ∀ t ∈ objs, AgreeBut ax u t
  /-- every column name of a part is found at the same place in the result -/
  columns : ax ≠ .columns → ∀ t ∈ objs, t.vdims <+: u.vdims
  cells : ∀ k (hk : k < objs.length), ∀ j < objs[k].values.dim ax, ∀ p : Pos,
    objs[k].values.InsideBut ax p →
    u.values.cell (p.set ax (((objs.take k).map fun t => t.values.dim ax).sum + j)) =
      objs[k].values.cell (p.set ax j)
  /-- columns a part does not have are missing there -/
  missing : ax ≠ .columns → ∀ k (hk : k < objs.length), ∀ j < objs[k].values.dim ax, ∀ p : Pos,
    objs[k].vdims.length ≤ p .columns → p .columns < u.vdims.length →
    (∀ b, b ≠ ax → b ≠ .columns → p b < objs[k].values.dim b) →
    u.values.cell (p.set ax (((objs.take k).map fun t => t.values.dim ax).sum + j)) = .nan

private theorem append_nan {t : Tri K} (c : String) (h1 : 0 < t.values.d1)
    (h3 : t.isVal = true ∨ 0 < t.values.d3) :
    ∃ g : Nat → Nat → Nat → Nat → Num K, t.appendScalarCol c .nan = .ok { t with
      vdims := t.vdims ++ [c]
      values := { t.values with
        d1 := t.values.d1 + 1
        get := g } } ∧
      (∀ i k o d, k < t.values.d1 → g i k o d = t.values.get i k o d) ∧
      ∀ i k o d, t.values.d1 ≤ k → g i k o d = .nan := by
  have hdr : t.isVal = true ∨ List.range t.values.d3 ≠ [] := by
    rcases h3 with h | h
    · exact Or.inl h
    · right; apply List.ne_nil_of_mem (a := 0); simpa using h
  have e := iloc_of_sel (t := t) (selS_all t.values.d0).sel (selS_nat t.values.d1 0 h1).sel
    (selS_all _) (selS_all _)
  rw [pick_eq t _ _ _ _ hdr] at e
  have e' : t.iloc (.slc .all) (.int 0) (.slc .all) (.slc .all) = _ := e
  unfold appendScalarCol
  rw [e']
  simp only [bind, Except.bind, mulArr, addArr, zipArr, Arr.zip_scalar]
  refine ⟨_, rfl, ?_, ?_⟩
  · intro i k o d hk; simp [hk]
  · intro i k o d hk
    simp only [show ¬ k < t.values.d1 by omega, if_false, cleanup]
    generalize (nanTri _ o d : Num K) = x
    obtain ⟨a, ha⟩ := Num.nanToNum_isFin x
    generalize hy : (t.picked _ _ _ _ _).values.get i 0 o d = y
    have : (y * 0 : Num K).nanToNum = .fin 0 := by
      cases y with
      | nan => rfl
      | fin b => rw [Num.zero_def, Num.fin_mul_fin]; simp
      | pinf => rw [Num.zero_def, Num.pinf_mul_fin]; simp [Num.infMul]
      | ninf => rw [Num.zero_def, Num.ninf_mul_fin]; simp [Num.infMul]
    rw [this, ha]
    simp

/-- Filling a triangle whose columns are the first of `cols`. -/
private theorem fill_prefix (ext : List String) : ∀ (t : Tri K), WF t → 0 < t.vdims.length →
    (t.isVal = true ∨ 0 < t.values.d3) → (t.vdims ++ ext).Nodup →
    ∃ g : Nat → Nat → Nat → Nat → Num K, fillColumns (t.vdims ++ ext) t = .ok { t with
      vdims := t.vdims ++ ext
      values := { t.values with
        d1 := t.values.d1 + ext.length
        get := g } } ∧
      (∀ i k o d, k < t.values.d1 → g i k o d = t.values.get i k o d) ∧
      ∀ i k o d, t.values.d1 ≤ k → k < t.values.d1 + ext.length → g i k o d = .nan := by
  have key : ∀ (ext : List String) (t : Tri K), WF t → 0 < t.vdims.length →
    (t.isVal = true ∨ 0 < t.values.d3) → (t.vdims ++ ext).Nodup →
    ∃ g : Nat → Nat → Nat → Nat → Num K, fillColumns ext t = .ok { t with
      vdims := t.vdims ++ ext
      values := { t.values with
        d1 := t.values.d1 + ext.length
        get := g } } ∧
      (∀ i k o d, k < t.values.d1 → g i k o d = t.values.get i k o d) ∧
      ∀ i k o d, t.values.d1 ≤ k → k < t.values.d1 + ext.length → g i k o d = .nan := by
    intro ext
    induction ext with
    | nil =>
      intro t wf h1 h3 hn
      refine ⟨t.values.get, ?_, fun _ _ _ _ _ => rfl, ?_⟩
      · simp [fillColumns]; rfl
      · intro i k o d ha hb; simp at hb; omega
    | cons c ext ih =>
      intro t wf h1 h3 hn
      obtain ⟨g, e, g1, g2⟩ := append_nan c (by rw [wf.2.1]; exact h1) h3 (t := t)
      have hc : t.vdims.contains c = false := by
        rw [List.contains_eq_mem]
        simp only [decide_eq_false_iff_not]
        intro hm
        exact (List.nodup_append.1 hn).2.2 c hm c (by simp) rfl
      obtain ⟨g', e', g1', g2'⟩ := ih { t with
        vdims := t.vdims ++ [c]
        values := { t.values with
          d1 := t.values.d1 + 1
          get := g } } ⟨wf.1, by simp [wf.2.1], wf.2.2.1, wf.2.2.2⟩ (by simp) h3 (by simpa using hn)
      refine ⟨g', ?_, ?_, ?_⟩
      · unfold fillColumns at e' ⊢
        rw [List.foldlM_cons]
        simp only [hc, Bool.false_eq_true, if_false, e, bind, Except.bind]
        rw [e']
        have e2 : t.values.d1 + 1 + ext.length = t.values.d1 + (ext.length + 1) := by omega
        simp only [List.append_assoc, List.singleton_append, List.length_cons, e2]
      · intro i k o d hk
        rw [g1' i k o d (by simp; omega)]
        exact g1 i k o d hk
      · intro i k o d ha hb
        by_cases hk : k = t.values.d1
        · rw [g1' i k o d (by simp; omega)]
          exact g2 i k o d ha
        · exact g2' i k o d (by simp; omega) (by simp at hb ⊢; omega)
  intro t wf h1 h3 hn
  obtain ⟨g, e, g1, g2⟩ := key ext t wf h1 h3 hn
  refine ⟨g, ?_, g1, g2⟩
  rw [← e]
  unfold fillColumns
  rw [List.foldlM_append]
  have := fillColumns_id t t.vdims (fun _ h => h)
  unfold fillColumns at this
  rw [this]
  rfl


private theorem inner_take {C : List String} (hn : C.Nodup) (a b : Nat) (hb : b ≤ C.length) :
    (C.take b).foldl (fun acc c => if acc.contains c then acc else acc ++ [c]) (C.take a) =
      C.take (max a b) := by
  induction b with
  | zero => simp
  | succ b ih =>
    have hb' : b < C.length := by omega
    rw [List.take_succ_eq_append_getElem hb', List.foldl_append, ih (by omega)]
    simp only [List.foldl_cons, List.foldl_nil]
    by_cases hab : b < a
    · have : C[b] ∈ C.take (max a b) := by
        rw [List.mem_take_iff_getElem]
        exact ⟨b, by omega, rfl⟩
      rw [if_pos (by simpa using this)]
      congr 1
      omega
    · have h1 : max a b = b := by omega
      have h2 : max a (b + 1) = b + 1 := by omega
      have : C[b] ∉ C.take b := by
        intro hm
        obtain ⟨j, hj, e⟩ := List.mem_take_iff_getElem.1 hm
        have := hn.getElem_inj_iff.1 e
        omega
      rw [h1, h2, if_neg (by simpa using this), List.take_succ_eq_append_getElem hb']

private theorem allColumns_prefix {C : List String} (hn : C.Nodup) {objs : List (Tri K)}
    (hp : ∀ t ∈ objs, t.vdims <+: C) (hC : ∃ t ∈ objs, t.vdims = C) : allColumns objs = C := by
  have key : ∀ (l : List (Tri K)), (∀ t ∈ l, t.vdims <+: C) → ∀ a, ∃ b, a ≤ b ∧
      l.foldl (fun acc t => t.vdims.foldl
        (fun acc c => if acc.contains c then acc else acc ++ [c]) acc) (C.take a) = C.take b ∧
      ∀ t ∈ l, t.vdims.length ≤ b := by
    intro l
    induction l with
    | nil => intro _ a; exact ⟨a, le_refl a, rfl, by simp⟩
    | cons t l ih =>
      intro h a
      have ht := h t (by simp)
      obtain ⟨b, h1, h2, h3⟩ := ih (fun t' h' => h t' (by simp [h'])) (max a t.vdims.length)
      refine ⟨b, by omega, ?_, ?_⟩
      · rw [List.foldl_cons, ← h2]
        congr 1
        conv_lhs => rw [List.prefix_iff_eq_take.1 ht]
        exact inner_take hn a _ ht.length_le
      · intro t' ht'
        rcases List.mem_cons.1 ht' with rfl | h'
        · omega
        · exact h3 t' h'
  obtain ⟨b, -, h2, h3⟩ := key objs hp 0
  obtain ⟨t, ht, e⟩ := hC
  have hb := h3 t ht
  unfold allColumns
  rw [List.take_zero] at h2
  rw [h2]
  exact List.take_of_length_le (by rw [← e]; exact hb)

theorem concat_core {ax : Axis} {objs fs : List (Tri K)} (hne : objs ≠ [])
    (h : alignColumns ax objs = .ok fs) (hfne : fs ≠ []) (wf : ∀ t ∈ fs, WF t)
    (hag : ∀ s ∈ fs, ∀ t ∈ fs, AgreeBut ax s t) (hcol : ax ≠ .columns → ∀ s ∈ fs, ∀ t ∈ fs,
      t.vdims = s.vdims) (hdis : Distinct ax fs) :
    ∃ u, concat ax objs = .ok u ∧ WF u ∧ Labels ax fs u ∧ (∀ t ∈ fs, AgreeBut ax u t) ∧
      (ax ≠ .columns → ∀ t ∈ fs, u.vdims = t.vdims) ∧
      (∃ t0 rest, fs = t0 :: rest ∧ u.vd = (rest.map Tri.vd).foldl max t0.vd ∧
        u.isVal = t0.isVal ∧ u.keyLabels = t0.keyLabels ∧ u.ograin = t0.ograin ∧
        u.dgrain = t0.dgrain ∧ u.isCum = t0.isCum ∧ u.isPattern = t0.isPattern ∧
        u.isAdditive = t0.isAdditive) ∧
      ∀ k (hk : k < fs.length), ∀ j < fs[k].values.dim ax, ∀ p : Pos,
        p ax = ((fs.take k).map fun t => t.values.dim ax).sum + j →
        u.values.cell p = fs[k].values.cell (p.set ax j) := by
  cases fs with
  | nil => exact absurd rfl hfne
  | cons t0 rest =>
    have hck := (check_ok (ax := ax) (t0 := t0) (objs := t0 :: rest) (by simp)).2
      ⟨hag t0 (by simp), hdis⟩
    have hdim : ∀ t ∈ t0 :: rest, ∀ x, x ≠ ax → t.values.dim x = t0.values.dim x := by
      intro t ht x hx
      obtain ⟨a1, a2, a3⟩ := hag t0 (by simp) t ht
      obtain ⟨w0, w1, w2, w3⟩ := wf t ht
      obtain ⟨v0, v1, v2, v3⟩ := wf t0 (by simp)
      cases x <;> simp only [Arr.dim]
      · rw [w0, v0, a1 (Ne.symm hx)]
      · rw [w1, v1, hcol (Ne.symm hx) t0 (by simp) t ht]
      · rw [w2, v2, a2 (Ne.symm hx)]
      · rw [w3, v3, (a3 (Ne.symm hx)).1]
    obtain ⟨r, r1, r2, r3, r4⟩ := Arr.foldl_cat2' ax (rest.map Tri.values) t0.values (by
      intro b hb
      obtain ⟨t, ht, rfl⟩ := List.mem_map.1 hb
      exact hdim t (by simp [ht]))
    rw [List.foldlM_map] at r1
    rw [← List.map_cons] at r2 r4
    rw [concat_eq hne h rfl, hck]
    simp only [bind, Except.bind, r1]
    have hcells : ∀ k (hk : k < (t0 :: rest).length), ∀ j < (t0 :: rest)[k].values.dim ax,
        ∀ p : Pos, p ax = (((t0 :: rest).take k).map fun t => t.values.dim ax).sum + j →
        r.cell p = (t0 :: rest)[k].values.cell (p.set ax j) := by
      intro k hk j hj p hp
      have := r4 k (by simpa using hk) j (by rw [List.getElem_map]; exact hj) p (by
        rw [hp, ← List.map_take, List.map_map]; rfl)
      rw [List.getElem_map] at this
      exact this
    have hsum : ∀ {β : Type} (f : Tri K → List β), (∀ t ∈ t0 :: rest,
        t.values.dim ax = (f t).length) → r.dim ax = ((t0 :: rest).flatMap f).length := by
      intro β f hf
      rw [r2, List.length_flatMap, List.map_map]
      congr 1
      apply List.map_congr_left
      intro t ht
      exact hf t ht
    have hag0 := hag t0 (by simp)
    have hwf0 := wf t0 (by simp)
    cases ax with
    | index =>
      refine ⟨_, rfl, ⟨hsum Tri.kdims fun t ht => (wf t ht).1, ?_, ?_, ?_⟩,
        ⟨fun _ => rfl, (by intro h; cases h), (by intro h; cases h), (by intro h; cases h)⟩,
        fun t ht => ⟨fun n => absurd rfl n, (hag0 t ht).2.1, (hag0 t ht).2.2⟩,
        fun n t ht => hcol n t ht t0 (by simp), ⟨t0, rest, rfl, rfl, rfl, rfl, rfl, rfl, rfl, rfl,
        rfl⟩, hcells⟩
      · exact (r3 .columns (by simp)).trans hwf0.2.1
      · exact (r3 .origin (by simp)).trans hwf0.2.2.1
      · exact (r3 .development (by simp)).trans hwf0.2.2.2
    | columns =>
      refine ⟨_, rfl, ⟨?_, hsum Tri.vdims fun t ht => (wf t ht).2.1, ?_, ?_⟩,
        ⟨(by intro h; cases h), fun _ => rfl, (by intro h; cases h), (by intro h; cases h)⟩,
        fun t ht => ⟨(hag0 t ht).1, (hag0 t ht).2.1, (hag0 t ht).2.2⟩,
        fun n => absurd rfl n, ⟨t0, rest, rfl, rfl, rfl, rfl, rfl, rfl, rfl, rfl,
        rfl⟩, hcells⟩
      · exact (r3 .index (by simp)).trans hwf0.1
      · exact (r3 .origin (by simp)).trans hwf0.2.2.1
      · exact (r3 .development (by simp)).trans hwf0.2.2.2
    | origin =>
      refine ⟨_, rfl, ⟨?_, ?_, hsum Tri.odims fun t ht => (wf t ht).2.2.1, ?_⟩,
        ⟨(by intro h; cases h), (by intro h; cases h), fun _ => rfl, (by intro h; cases h)⟩,
        fun t ht => ⟨(hag0 t ht).1, fun n => absurd rfl n, (hag0 t ht).2.2⟩,
        fun n t ht => hcol n t ht t0 (by simp), ⟨t0, rest, rfl, rfl, rfl, rfl, rfl, rfl, rfl, rfl,
        rfl⟩, hcells⟩
      · exact (r3 .index (by simp)).trans hwf0.1
      · exact (r3 .columns (by simp)).trans hwf0.2.1
      · exact (r3 .development (by simp)).trans hwf0.2.2.2
    | development =>
      refine ⟨_, rfl, ⟨?_, ?_, ?_, hsum Tri.ddims fun t ht => (wf t ht).2.2.2⟩,
        ⟨(by intro h; cases h), (by intro h; cases h), (by intro h; cases h), fun _ => rfl⟩,
        fun t ht => ⟨(hag0 t ht).1, (hag0 t ht).2.1, fun n => absurd rfl n⟩,
        fun n t ht => hcol n t ht t0 (by simp), ⟨t0, rest, rfl, rfl, rfl, rfl, rfl, rfl, rfl, rfl,
        rfl⟩, hcells⟩
      · exact (r3 .index (by simp)).trans hwf0.1
      · exact (r3 .columns (by simp)).trans hwf0.2.1
      · exact (r3 .origin (by simp)).trans hwf0.2.2.1

/-- **C20** (partial: column order, see `C20_column_order_false`).  Triangles that agree on the
other axes, have distinct labels on the concatenated one, and whose columns are (the first of) one
list of columns, are concatenated with every amount under its own labels. -/
theorem C20_concat_partial {ax : Axis} {objs : List (Tri K)} (hne : objs ≠ [])
    (wf : ∀ t ∈ objs, WF t) (hag : ∀ s ∈ objs, ∀ t ∈ objs, AgreeBut ax s t)
    (hdis : Distinct ax objs)
    (hcol : ax ≠ .columns → ∃ C : List String, C.Nodup ∧ (∀ t ∈ objs, t.vdims <+: C ∧ t.vdims ≠ [] ∧
      (t.isVal = true ∨ 0 < t.ddims.length)) ∧ ∃ t ∈ objs, t.vdims = C) :
    ∃ u, concat ax objs = .ok u ∧ Joined ax objs u := by
  by_cases hc : ax = .columns
  · have ha : alignColumns ax objs = .ok objs := by unfold alignColumns; rw [if_pos hc]
    obtain ⟨u, h1, h2, h3, h4, h5, -, h7⟩ := concat_core hne ha hne wf hag
      (fun n => absurd hc n) hdis
    refine ⟨u, h1, h2, h3, h4, fun n => absurd hc n, ?_, fun n => absurd hc n⟩
    intro k hk j hj p hp
    rw [h7 k hk j hj _ (by rw [Pos.set_self]), Pos.set_set]
  · obtain ⟨C, hn, hp, hC⟩ := hcol hc
    have hex : ∀ t : Tri K, ∃ (F : Tri K), t ∈ objs → fillColumns C t = .ok F ∧ WF F ∧
        F.kdims = t.kdims ∧ F.odims = t.odims ∧ F.ddims = t.ddims ∧ F.isVal = t.isVal ∧
        F.vdims = C ∧ (∀ x, x ≠ .columns → F.values.dim x = t.values.dim x) ∧
        (∀ i k o d, k < t.values.d1 → F.values.get i k o d = t.values.get i k o d) ∧
        ∀ i k o d, t.values.d1 ≤ k → k < C.length → F.values.get i k o d = .nan := by
      intro t
      by_cases ht : t ∈ objs
      · obtain ⟨⟨ext, rfl⟩, q2, q3⟩ := hp t ht
        have w := wf t ht
        obtain ⟨g, e, g1, g2⟩ := fill_prefix ext t w (List.length_pos_iff.2 q2)
          (by rw [w.2.2.2]; exact q3) hn
        refine ⟨_, fun _ => ⟨e, ⟨w.1, ?_, w.2.2.1, w.2.2.2⟩, rfl, rfl, rfl, rfl, rfl, ?_, g1, ?_⟩⟩
        · simp [w.2.1]
        · intro x hx; cases x <;> first | rfl | exact absurd rfl hx
        · intro i k o d ha hb
          exact g2 i k o d ha (by rw [w.2.1]; simpa using hb)
      · exact ⟨t, fun h => absurd h ht⟩
    choose F hF using hex
    have ha : alignColumns ax objs = .ok (objs.map F) := by
      unfold alignColumns
      rw [if_neg hc, allColumns_prefix hn (fun t ht => (hp t ht).1) hC]
      exact mapM_ok _ _ _ fun t ht => (hF t ht).1
    have hfm : ∀ {β : Type} (f : Tri K → List β), (∀ t ∈ objs, f (F t) = f t) →
        (objs.map F).flatMap f = objs.flatMap f := by
      intro β f hf
      rw [List.flatMap_map]
      simp only [List.flatMap]
      congr 1
      exact List.map_congr_left fun t ht => hf t ht
    have hdis' : Distinct ax (objs.map F) := by
      cases ax <;> simp only [Distinct] at hdis ⊢
      · rw [hfm Tri.kdims fun t ht => (hF t ht).2.2.1]; exact hdis
      · exact absurd rfl hc
      · rw [hfm Tri.odims fun t ht => (hF t ht).2.2.2.1]; exact hdis
      · rw [hfm Tri.ddims fun t ht => (hF t ht).2.2.2.2.1]
        refine ⟨hdis.1, ?_⟩
        intro s hs t ht
        obtain ⟨s', hs', rfl⟩ := List.mem_map.1 hs
        obtain ⟨t', ht', rfl⟩ := List.mem_map.1 ht
        rw [(hF s' hs').2.2.2.2.2.1, (hF t' ht').2.2.2.2.2.1]
        exact hdis.2 s' hs' t' ht'
    obtain ⟨u, h1, h2, h3, h4, h5, -, h7⟩ := concat_core hne ha (by simpa using hne)
      (by
        intro t ht
        obtain ⟨t', ht', rfl⟩ := List.mem_map.1 ht
        exact (hF t' ht').2.1)
      (by
        intro s hs t ht
        obtain ⟨s', hs', rfl⟩ := List.mem_map.1 hs
        obtain ⟨t', ht', rfl⟩ := List.mem_map.1 ht
        obtain ⟨-, -, s1, s2, s3, s4, -⟩ := hF s' hs'
        obtain ⟨-, -, t1, t2, t3, t4, -⟩ := hF t' ht'
        obtain ⟨a1, a2, a3⟩ := hag s' hs' t' ht'
        refine ⟨?_, ?_, ?_⟩
        · rw [s1, t1]; exact a1
        · rw [s2, t2]; exact a2
        · rw [s3, t3, s4, t4]; exact a3)
      (by
        intro n s hs t ht
        obtain ⟨s', hs', rfl⟩ := List.mem_map.1 hs
        obtain ⟨t', ht', rfl⟩ := List.mem_map.1 ht
        rw [(hF s' hs').2.2.2.2.2.2.1, (hF t' ht').2.2.2.2.2.2.1])
      hdis'
    have hv : ∀ t ∈ objs, u.vdims = C := by
      intro t ht
      rw [h5 hc (F t) (List.mem_map.2 ⟨t, ht, rfl⟩), (hF t ht).2.2.2.2.2.2.1]
    have hoff : ∀ k, (((objs.map F).take k).map fun t => t.values.dim ax).sum =
        ((objs.take k).map fun t => t.values.dim ax).sum := by
      intro k
      rw [← List.map_take, List.map_map]
      congr 1
      apply List.map_congr_left
      intro t ht
      exact (hF t (List.mem_of_mem_take ht)).2.2.2.2.2.2.2.1 ax hc
    have hcell : ∀ k (hk : k < objs.length), ∀ j < objs[k].values.dim ax, ∀ p : Pos,
        u.values.cell (p.set ax (((objs.take k).map fun t => t.values.dim ax).sum + j)) =
          (F objs[k]).values.cell (p.set ax j) := by
      intro k hk j hj p
      have hmem := List.getElem_mem hk
      have := h7 k (by simpa using hk) j
        (by simp only [List.getElem_map]; rw [(hF _ hmem).2.2.2.2.2.2.2.1 ax hc]; exact hj)
        (p.set ax (((objs.take k).map fun t => t.values.dim ax).sum + j))
        (by rw [Pos.set_self, hoff])
      rw [this, Pos.set_set]
      simp
    refine ⟨u, h1, h2, ?_, ?_, ?_, ?_, ?_⟩
    · refine ⟨fun e => ?_, fun e => absurd e hc, fun e => ?_, fun e => ?_⟩
      · rw [h3.1 e, hfm Tri.kdims fun t ht => (hF t ht).2.2.1]
      · rw [h3.2.2.1 e, hfm Tri.odims fun t ht => (hF t ht).2.2.2.1]
      · rw [h3.2.2.2 e, hfm Tri.ddims fun t ht => (hF t ht).2.2.2.2.1]
    · intro t ht
      obtain ⟨a1, a2, a3⟩ := h4 (F t) (List.mem_map.2 ⟨t, ht, rfl⟩)
      obtain ⟨-, -, t1, t2, t3, t4, -⟩ := hF t ht
      rw [t1] at a1
      rw [t2] at a2
      rw [t3, t4] at a3
      exact ⟨a1, a2, a3⟩
    · intro _ t ht
      rw [hv t ht]; exact (hp t ht).1
    · intro k hk j hj p hin
      rw [hcell k hk j hj p]
      refine (hF _ (List.getElem_mem hk)).2.2.2.2.2.2.2.2.1 _ _ _ _ ?_
      rw [Pos.set_ne _ _ (Ne.symm hc)]
      exact hin .columns (Ne.symm hc)
    · intro _ k hk j hj p ha hb _
      rw [hcell k hk j hj p]
      refine (hF _ (List.getElem_mem hk)).2.2.2.2.2.2.2.2.2 _ _ _ _ ?_ ?_
      · rw [Pos.set_ne _ _ (Ne.symm hc), (wf _ (List.getElem_mem hk)).2.1]; exact ha
      · rw [Pos.set_ne _ _ (Ne.symm hc), ← hv _ (List.getElem_mem hk)]; exact hb


/-- All labels of the axis are different. -/
def AxisNodup (t : Tri K) (ax : Axis) : Prop :=
  match ax with
  | .index => t.kdims.Nodup
  | .columns => t.vdims.Nodup
  | .origin => t.odims.Nodup
  | .development => t.ddims.Nodup

private theorem map_take_drop {α : Type} (l : List α) (x : α) {n k : Nat} (hn : n = l.length)
    (hk : k ≤ n) : (List.range k).map (l.getD · x) ++
      ((List.range (n - k)).map (· + k)).map (l.getD · x) = l := by
  have h : List.range n = List.range k ++ (List.range (n - k)).map (· + k) := by
    conv_lhs => rw [show n = k + (n - k) by omega, List.range_add]
    congr 1
    apply List.map_congr_left
    intro a _; omega
  rw [← List.map_append, ← h, hn]
  exact map_getD_range l x

/-- Concatenation of two triangles with the same columns. -/
theorem concat_two {ax : Axis} {a b : Tri K} (wa : WF a) (wb : WF b) (hag : AgreeBut ax a b)
    (hv : a.isVal = b.isVal) (hcol : ax ≠ .columns → a.vdims = b.vdims)
    (hdis : Distinct ax [a, b]) :
    ∃ u, concat ax [a, b] = .ok u ∧ WF u ∧ Labels ax [a, b] u ∧ AgreeBut ax u a ∧
      (ax ≠ .columns → u.vdims = a.vdims) ∧ u.vd = max a.vd b.vd ∧ u.isVal = a.isVal ∧
      u.keyLabels = a.keyLabels ∧ u.ograin = a.ograin ∧ u.dgrain = a.dgrain ∧ u.isCum = a.isCum ∧
      u.isPattern = a.isPattern ∧ u.isAdditive = a.isAdditive ∧
      (∀ p : Pos, p ax < a.values.dim ax → u.values.cell p = a.values.cell p) ∧
      ∀ p : Pos, ∀ j < b.values.dim ax, p ax = a.values.dim ax + j →
        u.values.cell p = b.values.cell (p.set ax j) := by
  have hal : alignColumns ax [a, b] = .ok [a, b] := by
    unfold alignColumns
    by_cases hc : ax = .columns
    · rw [if_pos hc]
    · rw [if_neg hc]
      refine mapM_fill_id [a, b] a.vdims ?_
      intro s hs
      simp only [List.mem_cons, List.not_mem_nil, or_false] at hs
      rcases hs with rfl | rfl
      · rfl
      · exact (hcol hc).symm
  obtain ⟨g1, g2, g3⟩ := hag
  obtain ⟨u, u1, u2, u3, u4, u5, ⟨t0, rest, e0, u6⟩, u7⟩ := concat_core (by simp) hal (by simp)
    (by
      intro s hs
      simp only [List.mem_cons, List.not_mem_nil, or_false] at hs
      rcases hs with rfl | rfl
      · exact wa
      · exact wb)
    (by
      intro s hs s' hs'
      simp only [List.mem_cons, List.not_mem_nil, or_false] at hs hs'
      refine ⟨fun e => ?_, fun e => ?_, fun e => ⟨?_, ?_⟩⟩
      · rcases hs with rfl | rfl <;> rcases hs' with rfl | rfl <;> simp only [g1 e]
      · rcases hs with rfl | rfl <;> rcases hs' with rfl | rfl <;> simp only [g2 e]
      · rcases hs with rfl | rfl <;> rcases hs' with rfl | rfl <;> simp only [(g3 e).1]
      · rcases hs with rfl | rfl <;> rcases hs' with rfl | rfl <;> simp only [hv])
    (by
      intro e s hs s' hs'
      simp only [List.mem_cons, List.not_mem_nil, or_false] at hs hs'
      rcases hs with rfl | rfl <;> rcases hs' with rfl | rfl <;> simp only [hcol e])
    hdis
  injection e0 with e0 e1
  subst e0
  subst e1
  obtain ⟨v1, v2, v3, v4, v5, v6, v7, v8⟩ := u6
  refine ⟨u, u1, u2, u3, u4 a (by simp), fun e => u5 e a (by simp), v1, v2, v3, v4, v5, v6, v7, v8,
    ?_, ?_⟩
  · intro p hp
    have := u7 0 (by simp) (p ax) hp p (by simp)
    rw [this, Pos.set_eq p ax rfl]
    rfl
  · intro p j hj hp
    exact u7 1 (by simp) j hj p (by simpa using hp)

/-- **C20, split.**  The two parts of a triangle split at any position of any axis are
concatenated to a triangle with the labels, flags and cells of the original.  Its valuation date is
the original one as soon as some cell of the triangle is valued at or after it. -/
theorem C20_split {t : Tri K} (wf : WF t) (ord : Ordered t) (ax : Axis) {k : Nat} (h0 : 0 < k)
    (hk : k < t.axisLen ax) (hn : AxisNodup t ax)
    (hd : t.isVal = true ∨ 0 < t.ddims.length) :
    ∃ a b u, t.ilocAx ax (.upto (k : Int)) = .ok a ∧ t.ilocAx ax (.from (k : Int)) = .ok b ∧
      concat ax [a, b] = .ok u ∧ WF u ∧ u.kdims = t.kdims ∧ u.vdims = t.vdims ∧
      u.odims = t.odims ∧ u.ddims = t.ddims ∧ u.isVal = t.isVal ∧ u.keyLabels = t.keyLabels ∧
      u.ograin = t.ograin ∧ u.dgrain = t.dgrain ∧ u.isCum = t.isCum ∧
      u.isPattern = t.isPattern ∧ u.isAdditive = t.isAdditive ∧
      (∀ p : Pos, (∀ x, p x < t.values.dim x) → u.values.cell p = t.values.cell p) ∧
      u.vd ≤ t.vd ∧
      ((∃ o < t.odims.length, ∃ d < t.ddims.length, t.vd ≤ t.valuation o d) → u.vd = t.vd) := by
  have hdim : t.values.dim ax = t.axisLen ax := by
    obtain ⟨w0, w1, w2, w3⟩ := wf
    cases ax <;> simp [Arr.dim, axisLen, *]
  have hd' : t.isVal = true ∨ 0 < t.values.d3 := by rw [wf.2.2.2]; exact hd
  set n := t.values.dim ax with hndef
  have hla : List.range k ≠ [] := List.ne_nil_of_mem (a := 0) (by simpa using h0)
  have hlb : (List.range (n - k)).map (· + k) ≠ [] :=
    List.ne_nil_of_mem (a := k) (by simp; omega)
  have ea := ilocAx_sel (t := t) (selS_upto n k (by omega)) hla hd'
  have eb := ilocAx_sel (t := t) (selS_from n k) hlb hd'
  set a := axPart t ax (List.range k) (axVd t ax (List.range k)) with hadef
  set b := axPart t ax ((List.range (n - k)).map (· + k))
    (axVd t ax ((List.range (n - k)).map (· + k))) with hbdef
  obtain ⟨la0, la1, la2, la3⟩ := axPart_labels wf ax (List.range k) (axVd t ax (List.range k))
  obtain ⟨lb0, lb1, lb2, lb3⟩ := axPart_labels wf ax ((List.range (n - k)).map (· + k))
    (axVd t ax ((List.range (n - k)).map (· + k)))
  rw [← hadef] at la0 la1 la2 la3
  rw [← hbdef] at lb0 lb1 lb2 lb3
  have hal : alignColumns ax [a, b] = .ok [a, b] := by
    unfold alignColumns
    by_cases hc : ax = .columns
    · rw [if_pos hc]
    · rw [if_neg hc]
      refine mapM_fill_id [a, b] t.vdims ?_
      intro s hs
      simp only [List.mem_cons, List.not_mem_nil, or_false] at hs
      rcases hs with rfl | rfl
      · exact la1 hc
      · exact lb1 hc
  have hflat : (ax = .index → a.kdims ++ b.kdims = t.kdims) ∧
      (ax = .columns → a.vdims ++ b.vdims = t.vdims) ∧
      (ax = .origin → a.odims ++ b.odims = t.odims) ∧
      (ax = .development → a.ddims ++ b.ddims = t.ddims) := by
    refine ⟨?_, ?_, ?_, ?_⟩ <;> intro e <;> subst e <;>
      simp only [hadef, hbdef, axPart, picked, axSel, if_true] <;>
      exact map_take_drop _ _ hdim (by omega)
  have hdis : Distinct ax [a, b] := by
    cases ax <;> simp only [Distinct, List.flatMap_cons, List.flatMap_nil, List.append_nil,
      AxisNodup] at hn ⊢
    · rw [hflat.1 rfl]; exact hn
    · rw [hflat.2.1 rfl]; exact hn
    · rw [hflat.2.2.1 rfl]; exact hn
    · rw [hflat.2.2.2 rfl]
      refine ⟨hn, ?_⟩
      intro s hs s' hs'
      simp only [List.mem_cons, List.not_mem_nil, or_false] at hs hs'
      rcases hs with rfl | rfl <;> rcases hs' with rfl | rfl <;> rfl
  obtain ⟨u, u1, u2, u3, u4, u5, ⟨t0, rest, e0, u6⟩, u7⟩ := concat_core (by simp) hal (by simp)
    (by
      intro s hs
      simp only [List.mem_cons, List.not_mem_nil, or_false] at hs
      rcases hs with rfl | rfl <;> exact axPart_wf _ _ _)
    (by
      intro s hs s' hs'
      simp only [List.mem_cons, List.not_mem_nil, or_false] at hs hs'
      refine ⟨fun e => ?_, fun e => ?_, fun e => ⟨?_, ?_⟩⟩
      · rcases hs with rfl | rfl <;> rcases hs' with rfl | rfl <;> simp only [la0 e, lb0 e]
      · rcases hs with rfl | rfl <;> rcases hs' with rfl | rfl <;> simp only [la2 e, lb2 e]
      · rcases hs with rfl | rfl <;> rcases hs' with rfl | rfl <;> simp only [la3 e, lb3 e]
      · rcases hs with rfl | rfl <;> rcases hs' with rfl | rfl <;> rfl)
    (by
      intro e s hs s' hs'
      simp only [List.mem_cons, List.not_mem_nil, or_false] at hs hs'
      rcases hs with rfl | rfl <;> rcases hs' with rfl | rfl <;> simp only [la1 e, lb1 e])
    hdis
  injection e0 with e0 e1
  subst e0
  subst e1
  obtain ⟨v1, v2, v3, v4, v5, v6, v7, v8⟩ := u6
  have hvd : u.vd = max (axVd t ax (List.range k)) (axVd t ax ((List.range (n - k)).map (· + k))) :=
    by rw [v1]; rfl
  refine ⟨a, b, u, ea, eb, u1, u2, ?_, ?_, ?_, ?_, v2, v3, v4, v5, v6, v7, v8, ?_, ?_, ?_⟩
  · by_cases e : ax = .index
    · rw [u3.1 e]; simp [hflat.1 e]
    · rw [← (u4 a (by simp)).1 e, la0 e]
  · by_cases e : ax = .columns
    · rw [u3.2.1 e]; simp [hflat.2.1 e]
    · rw [u5 e a (by simp), la1 e]
  · by_cases e : ax = .origin
    · rw [u3.2.2.1 e]; simp [hflat.2.2.1 e]
    · rw [← (u4 a (by simp)).2.1 e, la2 e]
  · by_cases e : ax = .development
    · rw [u3.2.2.2 e]; simp [hflat.2.2.2 e]
    · rw [← ((u4 a (by simp)).2.2 e).1, la3 e]
  · intro p hp
    have hda : a.values.dim ax = k := by rw [hadef, axPart_dim, axSel, if_pos rfl]; simp
    have hdb : b.values.dim ax = n - k := by rw [hbdef, axPart_dim, axSel, if_pos rfl]; simp
    by_cases hpk : p ax < k
    · rw [u7 0 (by simp) (p ax) (by simp [hda, hpk]) p (by simp), Pos.set_eq p ax rfl]
      simp only [List.getElem_cons_zero]
      rw [hadef, axPart_cell]
      congr 1
      funext x
      by_cases hx : x = ax
      · subst hx; rw [axSel, if_pos rfl, getD_range _ _ hpk]
      · rw [axSel, if_neg hx, getD_range _ _ (hp x)]
    · have hpn := hp ax
      rw [u7 1 (by simp) (p ax - k) (by simp [hdb]; omega) p (by simp [hda]; omega)]
      simp only [List.getElem_cons_succ, List.getElem_cons_zero]
      rw [hbdef, axPart_cell]
      congr 1
      funext x
      by_cases hx : x = ax
      · subst hx
        rw [axSel, if_pos rfl, Pos.set_self, getD_range_add _ _ _ (by omega)]
        omega
      · rw [axSel, if_neg hx, Pos.set_ne _ _ hx, getD_range _ _ (hp x)]
  · rw [hvd]; exact max_le (axVd_le t ax _) (axVd_le t ax _)
  · rintro ⟨o, ho, d, hd2, hv⟩
    have hinc : ((List.range (n - k)).map (· + k)).Pairwise (· < ·) := by
      rw [List.pairwise_map]
      exact List.pairwise_lt_range.imp fun h => by omega
    have hor : ax ≠ .origin → ∀ l, o ∈ axSel t ax l .origin := by
      intro e l
      rw [axSel, if_neg (Ne.symm e)]
      simp only [Arr.dim, List.mem_range]
      rw [wf.2.2.1]; exact ho
    have hdr : ax ≠ .development → ∀ l, d ∈ axSel t ax l .development := by
      intro e l
      rw [axSel, if_neg (Ne.symm e)]
      simp only [Arr.dim, List.mem_range]
      rw [wf.2.2.2]; exact hd2
    have hlt1 : ∀ j ∈ List.range k, j < t.values.dim ax := by
      intro j hj; rw [List.mem_range] at hj; omega
    have hlt2 : ∀ j ∈ (List.range (n - k)).map (· + k), j < t.values.dim ax := by
      intro j hj
      obtain ⟨i, hi, rfl⟩ := List.mem_map.1 hj
      rw [List.mem_range] at hi
      omega
    have hcase : (o ∈ axSel t ax (List.range k) .origin ∧
          d ∈ axSel t ax (List.range k) .development) ∨
        (o ∈ axSel t ax ((List.range (n - k)).map (· + k)) .origin ∧
          d ∈ axSel t ax ((List.range (n - k)).map (· + k)) .development) := by
      by_cases e : ax = .origin
      · have hdr' := hdr (by rw [e]; simp)
        have hno : n = t.odims.length := by rw [hdim, e]; rfl
        by_cases hok : o < k
        · left
          refine ⟨?_, hdr' _⟩
          rw [axSel, if_pos e.symm]; simpa using hok
        · right
          refine ⟨?_, hdr' _⟩
          rw [axSel, if_pos e.symm]
          exact List.mem_map.2 ⟨o - k, by rw [List.mem_range]; omega, by omega⟩
      · have hor' := hor e
        by_cases e' : ax = .development
        · have hno : n = t.ddims.length := by rw [hdim, e']; rfl
          by_cases hok : d < k
          · left
            refine ⟨hor' _, ?_⟩
            rw [axSel, if_pos e'.symm]; simpa using hok
          · right
            refine ⟨hor' _, ?_⟩
            rw [axSel, if_pos e'.symm]
            exact List.mem_map.2 ⟨d - k, by rw [List.mem_range]; omega, by omega⟩
        · exact Or.inl ⟨hor' _, hdr e' _⟩
    rw [hvd]
    rcases hcase with ⟨c1, c2⟩ | ⟨c1, c2⟩
    · rw [axVd_eq wf ord List.pairwise_lt_range hlt1 c1 c2 hv]
      exact max_eq_left (axVd_le _ _ _)
    · rw [axVd_eq wf ord hinc hlt2 c1 c2 hv]
      exact max_eq_right (axVd_le _ _ _)

/-- The 3 x 3 example split after the first origin. -/
example : ∃ a b u, (Ex.tri3 (some true) Ex.cum3).ilocAx .origin (.upto 1) = .ok a ∧
    (Ex.tri3 (some true) Ex.cum3).ilocAx .origin (.from 1) = .ok b ∧
    concat .origin [a, b] = .ok u ∧ u.odims = [24240, 24252, 24264] := by
  have pr := Ex.proper_tri3 (some true)
  obtain ⟨a, b, u, h1, h2, h3, -, -, -, h4, -⟩ := C20_split pr.wf pr.ordered .origin
    (k := 1) (by omega) (by decide) (by simp only [AxisNodup]; decide) (Or.inr (by decide))
  exact ⟨a, b, u, h1, h2, h3, h4⟩

/-- Two columns, paid 10 and incurred 20. -/
private def pi1 : Tri ℚ :=
  { Ex.tri3 (some true) Ex.cum3 with
    vdims := ["paid", "incurred"]
    kdims := [["A"]]
    values := ⟨1, 2, 3, 3, fun _ c _ _ => if c = 0 then .fin 10 else .fin 20⟩ }

/-- The same columns in the other order. -/
private def pi2 : Tri ℚ :=
  { Ex.tri3 (some true) Ex.cum3 with
    vdims := ["incurred", "paid"]
    kdims := [["B"]]
    values := ⟨1, 2, 3, 3, fun _ c _ _ => if c = 0 then .fin 20 else .fin 10⟩ }

/-- **C20 is false when the columns are ordered differently**: concatenating along the index puts
the incurred amounts of the second triangle under the label "paid". -/
theorem C20_column_order_false : ∃ x y u : Tri ℚ, concat .index [x, y] = .ok u ∧
    x.vdims = ["paid", "incurred"] ∧ y.vdims = ["incurred", "paid"] ∧
    u.vdims = ["paid", "incurred"] ∧
    (y.values.cell fun ax => if ax = .columns then 1 else 0) = .fin 10 ∧
    (u.values.cell fun ax => if ax = .index then 1 else 0) = .fin 20 := by
  refine ⟨pi1, pi2, _, rfl, rfl, rfl, rfl, ?_, ?_⟩ <;> decide +kernel

end Tri
end CL
