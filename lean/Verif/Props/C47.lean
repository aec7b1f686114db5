import Verif.Model.Options

/-! # C47: options are a simple store -/

namespace CL.Options

/-- The four documented options and their defaults. -/
def defaults : List (String × Val) :=
  [("ARRAY_BACKEND", .str "numpy"), ("AUTO_SPARSE", .bool true),
   ("ARRAY_PRIORITY", .strs ["dask", "sparse", "cupy", "numpy"]),
   ("ULT_VAL", .str "2261-12-31 23:59:59.999999999")]

/-- What a call says about option `k`, if anything. -/
def given (k : String) : Call → Option Val
  | .get _ => none
  | .set k' v => if k' = k then some v else none
  | .reset => defaults.lookup k

/-- The specification: the most recent call that says something about `k` (looking from the last
call backwards), otherwise the default. -/
def expected (calls : List Call) (k : String) : Option Val :=
  (calls.reverse.findSome? (given k)).or (defaults.lookup k)

def methodNames : List String := ["get_option", "set_option", "reset_option", "describe_option"]

/-- No call overwrites a method of the class. -/
def NoMethod (calls : List Call) : Prop :=
  ∀ k v, Call.set k v ∈ calls → k ∉ methodNames

private theorem callable_ok {s : Store} {m : String} (h : s m = some .method) :
    callable s m = .ok () := by simp [callable, h]

private theorem set_ok {s : Store} (h : s "set_option" = some .method) (k : String) (v : Val) :
    setOption s k v = .ok (setattr s k v) := by
  unfold setOption; rw [callable_ok h]; rfl

private theorem reset_ok {s : Store} (h : s "set_option" = some .method)
    (hr : s "reset_option" = some .method) :
    resetOption s = .ok (setattr (setattr (setattr (setattr s "ARRAY_BACKEND" (.str "numpy"))
      "AUTO_SPARSE" (.bool true)) "ARRAY_PRIORITY" (.strs ["dask", "sparse", "cupy", "numpy"]))
      "ULT_VAL" (.str "2261-12-31 23:59:59.999999999")) := by
  unfold resetOption
  rw [callable_ok hr]
  simp only [bind, Except.bind]
  rw [set_ok h]
  simp only
  rw [set_ok (by simp [setattr, h])]
  simp only
  rw [set_ok (by simp [setattr, h])]
  simp only
  rw [set_ok (by simp [setattr, h])]

private theorem lookup_defaults (k : String) : defaults.lookup k =
    if k = "ARRAY_BACKEND" then some (.str "numpy")
    else if k = "AUTO_SPARSE" then some (.bool true)
    else if k = "ARRAY_PRIORITY" then some (.strs ["dask", "sparse", "cupy", "numpy"])
    else if k = "ULT_VAL" then some (.str "2261-12-31 23:59:59.999999999")
    else none := by
  unfold defaults
  simp only [List.lookup_cons, List.lookup_nil]
  split <;> rename_i h1 <;> simp only [beq_iff_eq, beq_eq_false_iff_ne] at h1 <;> simp only [h1, if_true, if_false]
  split <;> rename_i h2 <;> simp only [beq_iff_eq, beq_eq_false_iff_ne] at h2 <;> simp only [h2, if_true, if_false]
  split <;> rename_i h3 <;> simp only [beq_iff_eq, beq_eq_false_iff_ne] at h3 <;> simp only [h3, if_true, if_false]
  split <;> rename_i h4 <;> simp only [beq_iff_eq, beq_eq_false_iff_ne] at h4 <;> simp only [h4, if_true, if_false]

private theorem initial_eq {k : String} (hk : k ∉ methodNames) : initial k = defaults.lookup k := by
  simp only [methodNames, List.mem_cons, List.not_mem_nil, or_false, not_or] at hk
  rw [lookup_defaults]
  simp [initial, hk]

private theorem run_inv (calls : List Call) (h : NoMethod calls) :
    (∀ m ∈ methodNames, run calls m = some .method) ∧
      ∀ k, k ∉ methodNames → run calls k = expected calls k := by
  induction calls using List.reverseRecOn with
  | nil =>
    refine ⟨by decide, fun k hk => ?_⟩
    simpa [run, expected] using initial_eq hk
  | append_singleton l c ih =>
    obtain ⟨h1, h2⟩ := ih fun k v hm => h k v (by simp [hm])
    have hs := h1 "set_option" (by decide)
    have hr := h1 "reset_option" (by decide)
    have hrun : run (l ++ [c]) = step (run l) c := by simp [run]
    have hexp : ∀ k, expected (l ++ [c]) k = (given k c).or (expected l k) := by
      intro k
      unfold expected
      simp only [List.reverse_append, List.reverse_cons, List.reverse_nil, List.nil_append,
        List.cons_append, List.findSome?_cons]
      cases given k c <;> simp
    rw [hrun]
    cases c with
    | get k => exact ⟨h1, fun k hk => by rw [hexp]; exact h2 k hk⟩
    | set k' v =>
      have hk' := h k' v (by simp)
      simp only [step, set_ok hs]
      refine ⟨fun m hm => ?_, fun k hk => ?_⟩
      · rw [setattr, if_neg (by rintro rfl; exact hk' hm)]; exact h1 m hm
      · rw [hexp]
        unfold setattr given
        by_cases e : k = k'
        · subst e; simp
        · rw [if_neg e]
          simp only [if_neg (Ne.symm e)]
          exact h2 k hk
    | reset =>
      simp only [step, reset_ok hs hr]
      refine ⟨fun m hm => ?_, fun k hk => ?_⟩
      · have hm' := h1 m hm
        simp only [methodNames, List.mem_cons, List.not_mem_nil, or_false] at hm
        rcases hm with rfl | rfl | rfl | rfl <;> simpa [setattr] using hm'
      · rw [hexp]
        unfold setattr given
        rw [lookup_defaults, h2 k hk]
        by_cases e1 : k = "ARRAY_BACKEND" <;> by_cases e2 : k = "AUTO_SPARSE" <;>
          by_cases e3 : k = "ARRAY_PRIORITY" <;> by_cases e4 : k = "ULT_VAL" <;> simp_all

/-- **C47** (partial: no call may overwrite a method, see `C47_method_name_false`).  After any
sequence of calls, `get_option(k)` returns the last value that `set_option` or `reset_option` gave to
`k`, or the default; it raises `AttributeError` exactly when `k` never had a value. -/
theorem C47_get_partial (calls : List Call) (h : NoMethod calls) (k : String)
    (hk : k ∉ methodNames) : getOption (run calls) k =
      match expected calls k with
      | some v => .ok v
      | none => .error .attribute := by
  obtain ⟨h1, h2⟩ := run_inv calls h
  unfold getOption
  rw [callable_ok (h1 _ (by decide)), h2 k hk]
  rfl

/-- Setting an option that is no method name always succeeds, is read back, and changes no other. -/
theorem C47_set (calls : List Call) (h : NoMethod calls) (k : String) (v : Val)
    (hk : k ∉ methodNames) : ∃ s, setOption (run calls) k v = .ok s ∧ getOption s k = .ok v ∧
      ∀ k', k' ≠ k → k' ∉ methodNames → getOption s k' = getOption (run calls) k' := by
  have h' : NoMethod (calls ++ [.set k v]) := by
    intro k' v' hm
    rw [List.mem_append] at hm
    rcases hm with hm | hm
    · exact h k' v' hm
    · simp at hm; rw [hm.1]; exact hk
  refine ⟨run (calls ++ [.set k v]), ?_, ?_, ?_⟩
  · have hs := (run_inv calls h).1 "set_option" (by decide)
    have : run (calls ++ [.set k v]) = step (run calls) (.set k v) := by
      unfold run; rw [List.foldl_append]; rfl
    rw [this, step, set_ok hs]
  · rw [C47_get_partial _ h' k hk]
    simp [expected, given]
  · intro k' hne hk'
    rw [C47_get_partial _ h' k' hk', C47_get_partial _ h k' hk']
    have : expected (calls ++ [.set k v]) k' = expected calls k' := by
      simp [expected, given, Ne.symm hne]
    rw [this]

/-- `reset_option` succeeds after any such sequence and restores the four defaults. -/
theorem C47_reset (calls : List Call) (h : NoMethod calls) :
    ∃ s, resetOption (run calls) = .ok s ∧ ∀ k v, (k, v) ∈ defaults → getOption s k = .ok v := by
  have hs := (run_inv calls h).1 "set_option" (by decide)
  have hr := (run_inv calls h).1 "reset_option" (by decide)
  have h' : NoMethod (calls ++ [.reset]) := by
    intro k' v' hm
    rw [List.mem_append] at hm
    rcases hm with hm | hm
    · exact h k' v' hm
    · simp at hm
  refine ⟨run (calls ++ [.reset]), ?_, ?_⟩
  · have : run (calls ++ [.reset]) = step (run calls) .reset := by
      unfold run; rw [List.foldl_append]; rfl
    rw [this, step, reset_ok hs hr]
  · intro k v hkv
    have hk : k ∉ methodNames := by
      simp only [defaults, List.mem_cons, Prod.mk.injEq, List.not_mem_nil, or_false] at hkv
      rcases hkv with ⟨rfl, -⟩ | ⟨rfl, -⟩ | ⟨rfl, -⟩ | ⟨rfl, -⟩ <;> decide
    have hl : defaults.lookup k = some v := by
      simp only [defaults, List.mem_cons, Prod.mk.injEq, List.not_mem_nil, or_false] at hkv
      rcases hkv with ⟨rfl, rfl⟩ | ⟨rfl, rfl⟩ | ⟨rfl, rfl⟩ | ⟨rfl, rfl⟩ <;> rfl
    rw [C47_get_partial _ h' k hk]
    simp [expected, given, hl]

/-- A user-defined option survives a reset; a documented one returns to its default. -/
example :
    getOption (run [.set "FOO" (.other 1), .set "AUTO_SPARSE" (.bool false), .reset]) "FOO"
      = .ok (.other 1) ∧
    getOption (run [.set "FOO" (.other 1), .set "AUTO_SPARSE" (.bool false), .reset]) "AUTO_SPARSE"
      = .ok (.bool true) ∧
    getOption (run [.set "AUTO_SPARSE" (.bool false)]) "AUTO_SPARSE" = .ok (.bool false) ∧
    getOption (run [.set "AUTO_SPARSE" (.bool false)]) "BAR" = .error .attribute := by decide

/-- **C47 is false for an option named like a method**: once `"set_option"` has been set, no
option can be set and `reset_option` raises. -/
theorem C47_method_name_false :
    setOption (run [.set "set_option" (.bool true)]) "AUTO_SPARSE" (.bool false) = .error .type ∧
    resetOption (run [.set "set_option" (.bool true)]) = .error .type := by
  constructor <;> rfl

end CL.Options
