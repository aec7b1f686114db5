import Verif.Model.Search
import Mathlib.Logic.Function.Iterate
import Mathlib.Algebra.BigOperators.Group.List.Basic

/-!
# Lemmas on searches and pipelines
-/

set_option linter.unusedSectionVars false

namespace CL
namespace Search

section dict
variable {κ V : Type} [DecidableEq κ]

theorem Dict.get?_set (d : Dict κ V) (k j : κ) (v : V) :
    (Dict.set d k v).get? j = if k = j then some v else d.get? j := by
  induction d with
  | nil => simp [Dict.set, Dict.get?]
  | cons p d ih =>
    by_cases hp : p.1 = k
    · subst hp
      by_cases hj : p.1 = j <;> simp [Dict.set, Dict.get?, hj]
    · by_cases hj : p.1 = j
      · have : k ≠ j := fun h => hp (hj.trans h.symm)
        have h2 : j ≠ k := fun h => this h.symm
        simp [Dict.set, Dict.get?, hj, this, h2]
      · simp [Dict.set, Dict.get?, hp, hj, ih]

theorem Dict.get?_of_mem (d : Dict κ V) (hn : (d.map (·.1)).Nodup) (p : κ × V) (hp : p ∈ d) :
    d.get? p.1 = some p.2 := by
  induction d with
  | nil => simp at hp
  | cons q d ih =>
    rw [List.map_cons, List.nodup_cons] at hn
    rcases List.mem_cons.1 hp with rfl | h
    · simp [Dict.get?]
    · have : q.1 ≠ p.1 := fun e => hn.1 (e ▸ List.mem_map_of_mem h)
      simp [Dict.get?, this, ih hn.2 h]

end dict

section tasks
variable {V E M : Type}

/-- What one task returns when it runs on its own. -/
def single (est : Estimator V E M) (scoring : List (String × (M → V))) (item : Dict String V) :
    Except Err (Dict String V) :=
  (est.setParams item >>= est.fit).map fun m =>
    scoring.foldl (fun d s => Dict.set d s.1 (s.2 m)) item

theorem runTasks_length (est : Estimator V E M) (sc : List (String × (M → V))) (ts : List (Task V M))
    (sch : List Nat) : (runTasks est sc ts sch).length = ts.length := by
  induction sch generalizing ts with
  | nil => rfl
  | cons i sch ih =>
    show (runTasks est sc (ts.modify i (Task.step est sc)) sch).length = _
    rw [ih, List.length_modify]

theorem runTasks_getElem? (est : Estimator V E M) (sc : List (String × (M → V))) (ts : List (Task V M))
    (sch : List Nat) (i : Nat) :
    (runTasks est sc ts sch)[i]? = ts[i]?.map (Task.step est sc)^[sch.count i] := by
  induction sch generalizing ts with
  | nil => simp [runTasks]
  | cons j sch ih =>
    show (runTasks est sc (ts.modify j (Task.step est sc)) sch)[i]? = _
    rw [ih, List.getElem?_modify, List.count_cons]
    by_cases h : j = i
    · subst h
      cases ts[j]? <;> simp
    · simp [h]

theorem iter_done (est : Estimator V E M) (sc : List (String × (M → V))) (c : Nat) (d : Dict String V) :
    (Task.step est sc)^[c] (.done d) = .done d := by
  induction c with
  | zero => rfl
  | succ c ih => rw [Function.iterate_succ_apply]; exact ih

theorem iter_failed (est : Estimator V E M) (sc : List (String × (M → V))) (c : Nat) (e : Err) :
    (Task.step est sc)^[c] (.failed e) = .failed e := by
  induction c with
  | zero => rfl
  | succ c ih => rw [Function.iterate_succ_apply]; exact ih

theorem iter_scoring (est : Estimator V E M) (sc : List (String × (M → V))) (m : M) (c : Nat)
    (todo : List (String × (M → V))) (d : Dict String V) :
    (((Task.step est sc)^[c] (.scoring m todo d)).result? = none ∧ c ≤ todo.length) ∨
      ((Task.step est sc)^[c] (.scoring m todo d) =
        .done (todo.foldl (fun d s => Dict.set d s.1 (s.2 m)) d)) := by
  induction c generalizing todo d with
  | zero => left; exact ⟨rfl, Nat.zero_le _⟩
  | succ c ih =>
    rw [Function.iterate_succ_apply]
    cases todo with
    | nil => right; exact iter_done est sc c d
    | cons s todo =>
      rcases ih todo (Dict.set d s.1 (s.2 m)) with h | h
      · left; exact ⟨h.1, by simpa using h.2⟩
      · right; exact h

/-- A task that has returned has returned what it returns on its own, and it has returned after
`scoring.length + 2` steps. -/
theorem iter_start (est : Estimator V E M) (sc : List (String × (M → V))) (c : Nat)
    (item : Dict String V) :
    (((Task.step est sc)^[c] (.start item)).result? = none ∧ c ≤ sc.length + 1) ∨
      ((Task.step est sc)^[c] (.start item)).result? = some (single est sc item) := by
  cases c with
  | zero => left; exact ⟨rfl, Nat.zero_le _⟩
  | succ c =>
    rw [Function.iterate_succ_apply]
    unfold single
    cases h : est.setParams item >>= est.fit with
    | error e =>
      right
      have : Task.step est sc (.start item) = .failed e := by simp only [Task.step, h]
      rw [this, iter_failed]; rfl
    | ok m =>
      have : Task.step est sc (.start item) = .scoring m sc item := by simp only [Task.step, h]
      rw [this]
      rcases iter_scoring est sc m c sc item with h | h
      · left; exact ⟨h.1, by omega⟩
      · right; rw [h]; rfl

theorem mapM_some {α β : Type} (f : α → Option β) (l : List α) (r : List β) :
    l.mapM f = some r ↔ l.map f = r.map some := by
  induction l generalizing r with
  | nil => cases r <;> simp
  | cons a l ih =>
    rw [List.mapM_cons]
    cases h : f a with
    | none => cases r <;> simp [h]
    | some b =>
      cases h2 : l.mapM f with
      | none =>
        cases r with
        | nil => simp
        | cons c r =>
          have : ¬ l.map f = r.map some := fun e => by rw [(ih r).2 e] at h2; cases h2
          simp [h, this]
      | some q =>
        have hq := (ih q).1 h2
        cases r with
        | nil => simp
        | cons c r =>
          simp only [Option.bind_eq_bind, Option.bind_some, Option.pure_def, Option.some.injEq, List.cons.injEq,
            List.map_cons, h, hq]
          rw [(List.map_injective_iff.2 (Option.some_injective _)).eq_iff]

end tasks
end Search
end CL
