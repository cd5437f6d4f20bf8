/-!
# `golang.org/x/sync/errgroup`

A group with a limit runs tasks `0 … n-1`.  The launching goroutine calls `eg.Go` for each task in turn and
blocks while `limit` tasks hold the semaphore; a task executes (writes its own slot, or records its error if
it is the first), and later releases the semaphore.  Any interleaving of these steps is allowed.

`task i` is what task `i` yields in the execution under consideration.  Since every task executes at most
once, a fixed function covers tasks whose outcome depends on timing as well.
-/
namespace Osv

/-- State of a group: number of launched tasks, tasks that still have to execute, tasks that executed but
still hold the semaphore, the result slots and the first error. -/
structure EGState (ε β : Type) where
  next : Nat
  started : List Nat
  executed : List Nat
  slots : List (Option β)
  err : Option ε

namespace EG
variable {ε β : Type}

/-- Before the first `eg.Go`; `make([]T, n)` for the slots. -/
def init (n : Nat) : EGState ε β := ⟨0, [], [], List.replicate n none, none⟩

/-- One step of one goroutine. -/
inductive Step (n limit : Nat) (task : Nat → Except ε β) : EGState ε β → EGState ε β → Prop
  /-- `eg.Go` acquires the semaphore and starts the next task -/
  | launch (s) : s.next < n → s.started.length + s.executed.length < limit →
      Step n limit task s { s with next := s.next + 1, started := s.next :: s.started }
  /-- a task succeeds and writes its slot -/
  | succeed (s) (i) (b) : i ∈ s.started → task i = .ok b →
      Step n limit task s
        { s with started := s.started.erase i, executed := i :: s.executed, slots := s.slots.set i (some b) }
  /-- a task fails; only the first error is kept (`errOnce`) -/
  | fail (s) (i) (e) : i ∈ s.started → task i = .error e →
      Step n limit task s
        { s with started := s.started.erase i, executed := i :: s.executed, err := s.err.or (some e) }
  /-- a task releases the semaphore -/
  | release (s) (i) : i ∈ s.executed → Step n limit task s { s with executed := s.executed.erase i }

/-- States reachable from the initial one. -/
inductive Reachable (n limit : Nat) (task : Nat → Except ε β) : EGState ε β → Prop
  | init : Reachable n limit task (init n)
  | step {s t} : Reachable n limit task s → Step n limit task s t → Reachable n limit task t

/-- `eg.Wait()` returns: everything was launched and everything is done. -/
def Final (n : Nat) (s : EGState ε β) : Prop := s.next = n ∧ s.started = [] ∧ s.executed = []

/-- Invariant of every execution. -/
structure Inv (n : Nat) (task : Nat → Except ε β) (s : EGState ε β) : Prop where
  next_le : s.next ≤ n
  len : s.slots.length = n
  nodup : s.started.Nodup
  lt : ∀ i ∈ s.started, i < s.next
  pending : ∀ i, i < n → (i ∈ s.started ∨ s.next ≤ i) → s.slots[i]? = some none
  done : ∀ i, i < s.next → i ∉ s.started →
    (∀ b, task i = .ok b → s.slots[i]? = some (some b)) ∧
    (∀ e, task i = .error e → s.slots[i]? = some none ∧ s.err.isSome = true)
  err : ∀ e, s.err = some e → ∃ i, i < s.next ∧ i ∉ s.started ∧ task i = .error e

theorem inv_init (n : Nat) (task : Nat → Except ε β) : Inv n task (init n) where
  next_le := Nat.zero_le _
  len := by simp [init]
  nodup := by simp [init]
  lt := by simp [init]
  pending i hi _ := by simp [init, hi]
  done i hi := absurd hi (Nat.not_lt_zero _)
  err e h := by simp [init] at h

theorem inv_step {n limit : Nat} {task : Nat → Except ε β} {s t : EGState ε β} (h : Inv n task s)
    (hs : Step n limit task s t) : Inv n task t := by
  cases hs with
  | launch hn _ =>
    have hnot : s.next ∉ s.started := fun hh => Nat.lt_irrefl _ (h.lt _ hh)
    refine ⟨hn, h.len, List.nodup_cons.mpr ⟨hnot, h.nodup⟩, ?_, ?_, ?_, ?_⟩
    · intro i hi
      rcases List.mem_cons.mp hi with rfl | hi
      · exact Nat.lt_succ_self _
      · exact Nat.lt_succ_of_lt (h.lt i hi)
    · intro i hi hp
      apply h.pending i hi
      rcases hp with hp | hp
      · rcases List.mem_cons.mp hp with rfl | hp
        · exact .inr (Nat.le_refl _)
        · exact .inl hp
      · exact .inr (Nat.le_of_succ_le hp)
    · intro i hi hp
      have hne : i ≠ s.next := fun e => hp (by simp [e])
      exact h.done i (by simp at hi; omega) (fun hh => hp (List.mem_cons_of_mem _ hh))
    · intro e he
      obtain ⟨i, h1, h2, h3⟩ := h.err e he
      refine ⟨i, Nat.lt_succ_of_lt h1, ?_, h3⟩
      intro hh
      rcases List.mem_cons.mp hh with rfl | hh
      · exact Nat.lt_irrefl _ h1
      · exact h2 hh
  | succeed i b hi hb =>
    have hin : i < n := Nat.lt_of_lt_of_le (h.lt i hi) h.next_le
    refine ⟨h.next_le, by simp [h.len], h.nodup.erase i, ?_, ?_, ?_, ?_⟩
    · intro j hj; exact h.lt j (List.mem_of_mem_erase hj)
    · intro j hj hp
      have hji : i ≠ j := by
        rintro rfl
        rcases hp with hp | hp
        · exact (h.nodup.not_mem_erase) hp
        · exact absurd (h.lt i hi) (Nat.not_lt.mpr hp)
      rw [List.getElem?_set_ne hji]
      exact h.pending j hj (hp.imp List.mem_of_mem_erase id)
    · intro j hj hp
      by_cases hji : i = j
      · subst hji
        refine ⟨?_, ?_⟩
        · intro b' hb'
          rw [hb] at hb'; cases hb'
          rw [List.getElem?_set_self (by rw [h.len]; exact hin)]
        · intro e he; rw [hb] at he; cases he
      · rw [List.getElem?_set_ne hji]
        exact h.done j hj (fun hh => hp ((List.mem_erase_of_ne (Ne.symm hji)).mpr hh))
    · intro e he
      obtain ⟨j, h1, h2, h3⟩ := h.err e he
      exact ⟨j, h1, fun hh => h2 (List.mem_of_mem_erase hh), h3⟩
  | fail i e hi he =>
    have hsome : (s.err.or (some e)).isSome = true := by cases s.err <;> rfl
    refine ⟨h.next_le, h.len, h.nodup.erase i, ?_, ?_, ?_, ?_⟩
    · intro j hj; exact h.lt j (List.mem_of_mem_erase hj)
    · intro j hj hp; exact h.pending j hj (hp.imp List.mem_of_mem_erase id)
    · intro j hj hp
      by_cases hji : i = j
      · subst hji
        refine ⟨?_, ?_⟩
        · intro b hb; rw [he] at hb; cases hb
        · intro e' _
          exact ⟨h.pending i (Nat.lt_of_lt_of_le hj h.next_le) (.inl hi), hsome⟩
      · obtain ⟨h1, h2⟩ := h.done j hj (fun hh => hp ((List.mem_erase_of_ne (Ne.symm hji)).mpr hh))
        exact ⟨h1, fun e' he' => ⟨(h2 e' he').1, hsome⟩⟩
    · intro e' he'
      cases hs : s.err with
      | some e'' =>
        simp only [hs, Option.some_or, Option.some.injEq] at he'
        subst he'
        obtain ⟨j, h1, h2, h3⟩ := h.err _ hs
        exact ⟨j, h1, fun hh => h2 (List.mem_of_mem_erase hh), h3⟩
      | none =>
        simp only [hs, Option.none_or, Option.some.injEq] at he'
        subst he'
        exact ⟨i, h.lt i hi, h.nodup.not_mem_erase, he⟩
  | release i hi => exact ⟨h.next_le, h.len, h.nodup, h.lt, h.pending, h.done, h.err⟩

theorem inv_reachable {n limit : Nat} {task : Nat → Except ε β} {s : EGState ε β}
    (h : Reachable n limit task s) : Inv n task s := by
  induction h with
  | init => exact inv_init n task
  | step _ hs ih => exact inv_step ih hs

/-- When `Wait` returns an error, it is the error of some task. -/
theorem final_err {n limit : Nat} {task : Nat → Except ε β} {s : EGState ε β}
    (h : Reachable n limit task s) (hf : Final n s) (e : ε) (he : s.err = some e) :
    ∃ i, i < n ∧ task i = .error e := by
  obtain ⟨i, h1, -, h3⟩ := (inv_reachable h).err e he
  exact ⟨i, by rw [hf.1] at h1; exact h1, h3⟩

/-- When `Wait` returns no error, every slot holds the result of its task. -/
theorem final_ok {n limit : Nat} {task : Nat → Except ε β} {s : EGState ε β}
    (h : Reachable n limit task s) (hf : Final n s) (he : s.err = none) :
    ∀ i, i < n → ∃ b, task i = .ok b ∧ s.slots[i]? = some (some b) := by
  intro i hi
  have hd := (inv_reachable h).done i (by rw [hf.1]; exact hi) (by rw [hf.2.1]; simp)
  cases ht : task i with
  | ok b => exact ⟨b, rfl, hd.1 b ht⟩
  | error e => have := (hd.2 e ht).2; rw [he] at this; cases this

/-- If some task fails, `Wait` returns an error. -/
theorem final_err_of_task {n limit : Nat} {task : Nat → Except ε β} {s : EGState ε β}
    (h : Reachable n limit task s) (hf : Final n s) {i : Nat} {e : ε} (hi : i < n) (ht : task i = .error e) :
    ∃ e', s.err = some e' := by
  have hd := (inv_reachable h).done i (by rw [hf.1]; exact hi) (by rw [hf.2.1]; simp)
  exact Option.isSome_iff_exists.mp (hd.2 e ht).2

/-- Number of steps left. -/
def remaining (n : Nat) (s : EGState ε β) : Nat := 3 * (n - s.next) + 2 * s.started.length + s.executed.length

/-- Every step brings the group closer to its end, so every execution is finite. -/
theorem step_decreases {n limit : Nat} {task : Nat → Except ε β} {s t : EGState ε β}
    (hs : Step n limit task s t) : remaining n t < remaining n s := by
  unfold remaining
  cases hs with
  | launch hn _ => simp only [List.length_cons]; omega
  | succeed i b hi _ =>
    have := List.length_erase_of_mem hi
    have : 0 < s.started.length := List.length_pos_of_mem hi
    simp only [List.length_cons]; omega
  | fail i b hi _ =>
    have := List.length_erase_of_mem hi
    have : 0 < s.started.length := List.length_pos_of_mem hi
    simp only [List.length_cons]; omega
  | release i hi =>
    have := List.length_erase_of_mem hi
    have : 0 < s.executed.length := List.length_pos_of_mem hi
    simp only; omega

/-- No deadlock: as long as the group is not finished some goroutine can make a step. -/
theorem progress {n limit : Nat} (hl : 0 < limit) {task : Nat → Except ε β} {s : EGState ε β}
    (h : Reachable n limit task s) (hf : ¬ Final n s) : ∃ t, Step n limit task s t := by
  cases hst : s.started with
  | cons i is =>
    cases ht : task i with
    | ok b => exact ⟨_, .succeed s i b (by simp [hst]) ht⟩
    | error e => exact ⟨_, .fail s i e (by simp [hst]) ht⟩
  | nil =>
    cases hex : s.executed with
    | cons i is => exact ⟨_, .release s i (by simp [hex])⟩
    | nil =>
      have hle := (inv_reachable h).next_le
      have hne : s.next ≠ n := fun e => hf ⟨e, hst, hex⟩
      exact ⟨_, .launch s (by omega) (by simp [hst, hex, hl])⟩

/-- At most `limit` tasks are active at any time. -/
theorem limit_respected {n limit : Nat} {task : Nat → Except ε β} {s : EGState ε β}
    (h : Reachable n limit task s) : s.started.length + s.executed.length ≤ limit := by
  induction h with
  | init => simp [init]
  | @step s t _ hs ih =>
    cases hs with
    | launch _ hl => simp only [List.length_cons]; omega
    | succeed i b hi _ =>
      have := List.length_erase_of_mem hi
      have : 0 < s.started.length := List.length_pos_of_mem hi
      simp only [List.length_cons]; omega
    | fail i b hi _ =>
      have := List.length_erase_of_mem hi
      have : 0 < s.started.length := List.length_pos_of_mem hi
      simp only [List.length_cons]; omega
    | release i hi =>
      have := List.length_erase_of_mem hi
      have : 0 < s.executed.length := List.length_pos_of_mem hi
      simp only; omega

/-- Some complete execution exists (every fair scheduler produces one). -/
theorem exists_final {n limit : Nat} (hl : 0 < limit) (task : Nat → Except ε β) :
    ∃ s, Reachable n limit task s ∧ Final n s := by
  have key : ∀ k s, remaining n s ≤ k → Reachable n limit task s →
      ∃ t, Reachable n limit task t ∧ Final n t := by
    intro k
    induction k with
    | zero =>
      intro s hk hr
      by_cases hf : Final n s
      · exact ⟨s, hr, hf⟩
      · obtain ⟨t, ht⟩ := progress hl hr hf
        have := step_decreases ht
        omega
    | succ k ih =>
      intro s hk hr
      by_cases hf : Final n s
      · exact ⟨s, hr, hf⟩
      · obtain ⟨t, ht⟩ := progress hl hr hf
        have := step_decreases ht
        exact ih t (by omega) (.step hr ht)
  exact key _ _ (Nat.le_refl _) .init

end EG
end Osv
