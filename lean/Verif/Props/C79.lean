import Verif.Model.RegexCache
/-! # C79: the cache of patterns is never seen -/
namespace Osv
open Str

namespace Cache

/-- How many steps a goroutine can still take. -/
def left : CallState → Nat
  | .start => 3
  | .missed => 2
  | .compiled _ => 1
  | .done _ => 0
  | .panicked => 0

/-- How many steps are left altogether. -/
def measure (s : CacheState) : Nat := (s.calls.map fun c => left c.2).sum

/-- What holds in every state. -/
structure Inv (valid : Str → Bool) (patterns : List Str) (s : CacheState) : Prop where
  calls : s.calls.map (·.1) = patterns
  /-- cached objects have the right pattern -/
  cached : ∀ e p, s.cache e = some p → s.objects[p]? = some e
  /-- new objects have the right pattern -/
  fresh : ∀ e p, (e, CallState.compiled p) ∈ s.calls → s.objects[p]? = some e
  /-- what has been returned is in the cache -/
  done : ∀ e p, (e, CallState.done p) ∈ s.calls → s.cache e = some p
  /-- objects are compiled from valid patterns -/
  ok : ∀ (p : Nat) (e : Str), s.objects[p]? = some e → valid e = true
  panicked : ∀ e, (e, CallState.panicked) ∈ s.calls → valid e = false

theorem mem_set {α : Type} {l : List α} {i : Nat} {a b : α} (h : b ∈ l.set i a) : b = a ∨ b ∈ l :=
  (List.mem_or_eq_of_mem_set h).symm

theorem map_set {s : CacheState} {i : Nat} {e : Str} {c d : CallState} (h : s.calls[i]? = some (e, c)) :
    (s.calls.set i (e, d)).map (·.1) = s.calls.map (·.1) := by
  rw [List.map_set]
  apply List.ext_getElem?
  intro j
  rw [List.getElem?_set]
  split
  · rename_i hj
    subst hj
    split
    · rw [List.getElem?_map, h]; rfl
    · rename_i hl
      rw [List.getElem?_eq_none (by omega)]
  · rfl

theorem inv_init (valid : Str → Bool) (patterns : List Str) : Inv valid patterns (.init patterns) := by
  have hno : ∀ e c, (e, c) ∈ (CacheState.init patterns).calls → c = CallState.start := by
    intro e c h
    obtain ⟨_, _, h⟩ := List.mem_map.1 h
    injection h with _ h
    exact h.symm
  refine ⟨?_, ?_, ?_, ?_, ?_, ?_⟩
  · simp [CacheState.init, Function.comp_def]
  · intro e p h; cases h
  · intro e p h; cases hno _ _ h
  · intro e p h; cases hno _ _ h
  · intro p e h; simp [CacheState.init] at h
  · intro e h; cases hno _ _ h

theorem inv_step {valid : Str → Bool} {patterns : List Str} {s t : CacheState} (h : Inv valid patterns s)
    (hs : CacheStep valid s t) : Inv valid patterns t := by
  cases hs with
  | hit i e p hi hc =>
    refine ⟨by rw [map_set hi]; exact h.calls, h.cached, ?_, ?_, h.ok, ?_⟩
    · intro e' q hm
      rcases mem_set hm with hm | hm
      · cases hm
      · exact h.fresh e' q hm
    · intro e' q hm
      rcases mem_set hm with hm | hm
      · cases hm; exact hc
      · exact h.done e' q hm
    · intro e' hm
      rcases mem_set hm with hm | hm
      · cases hm
      · exact h.panicked e' hm
  | miss i e hi hc =>
    refine ⟨by rw [map_set hi]; exact h.calls, h.cached, ?_, ?_, h.ok, ?_⟩
    · intro e' q hm
      rcases mem_set hm with hm | hm
      · cases hm
      · exact h.fresh e' q hm
    · intro e' q hm
      rcases mem_set hm with hm | hm
      · cases hm
      · exact h.done e' q hm
    · intro e' hm
      rcases mem_set hm with hm | hm
      · cases hm
      · exact h.panicked e' hm
  | compile i e hi hv =>
    have hold : ∀ (p : Nat) (e' : Str), s.objects[p]? = some e' → (s.objects ++ [e])[p]? = some e' := by
      intro p e' hp
      rw [List.getElem?_append_left (List.getElem?_eq_some_iff.1 hp).1]
      exact hp
    refine ⟨by rw [map_set hi]; exact h.calls, fun e' p hp => hold p e' (h.cached e' p hp), ?_, ?_, ?_, ?_⟩
    · intro e' q hm
      rcases mem_set hm with hm | hm
      · cases hm; simp
      · exact hold q e' (h.fresh e' q hm)
    · intro e' q hm
      rcases mem_set hm with hm | hm
      · cases hm
      · exact h.done e' q hm
    · intro p e' hp
      by_cases hl : p < s.objects.length
      · rw [List.getElem?_append_left hl] at hp
        exact h.ok p e' hp
      · rw [List.getElem?_append_right (by omega)] at hp
        cases hk : p - s.objects.length with
        | zero => rw [hk] at hp; cases hp; exact hv
        | succ k => rw [hk] at hp; simp at hp
    · intro e' hm
      rcases mem_set hm with hm | hm
      · cases hm
      · exact h.panicked e' hm
  | panic i e hi hv =>
    refine ⟨by rw [map_set hi]; exact h.calls, h.cached, ?_, ?_, h.ok, ?_⟩
    · intro e' q hm
      rcases mem_set hm with hm | hm
      · cases hm
      · exact h.fresh e' q hm
    · intro e' q hm
      rcases mem_set hm with hm | hm
      · cases hm
      · exact h.done e' q hm
    · intro e' hm
      rcases mem_set hm with hm | hm
      · cases hm; exact hv
      · exact h.panicked e' hm
  | loaded i e p q hi hc =>
    refine ⟨by rw [map_set hi]; exact h.calls, h.cached, ?_, ?_, h.ok, ?_⟩
    · intro e' q hm
      rcases mem_set hm with hm | hm
      · cases hm
      · exact h.fresh e' q hm
    · intro e' q hm
      rcases mem_set hm with hm | hm
      · cases hm; exact hc
      · exact h.done e' q hm
    · intro e' hm
      rcases mem_set hm with hm | hm
      · cases hm
      · exact h.panicked e' hm
  | stored i e p hi hc =>
    have hp : s.objects[p]? = some e := h.fresh e p (List.mem_of_getElem? hi)
    refine ⟨by rw [map_set hi]; exact h.calls, ?_, ?_, ?_, h.ok, ?_⟩
    · intro e' q hq
      dsimp only at hq
      split at hq
      · rename_i he; cases hq; rw [he]; exact hp
      · exact h.cached e' q hq
    · intro e' q hm
      rcases mem_set hm with hm | hm
      · cases hm
      · exact h.fresh e' q hm
    · intro e' q hm
      dsimp only
      rcases mem_set hm with hm | hm
      · cases hm; rw [if_pos rfl]
      · have := h.done e' q hm
        split
        · rename_i he; rw [he, hc] at this; cases this
        · exact this
    · intro e' hm
      rcases mem_set hm with hm | hm
      · cases hm
      · exact h.panicked e' hm

theorem inv_reach {valid : Str → Bool} {patterns : List Str} {s : CacheState} (h : CacheReach valid patterns s) :
    Inv valid patterns s := by
  induction h with
  | init => exact inv_init valid patterns
  | step _ hs ih => exact inv_step ih hs

theorem sum_set {l : List Nat} {i a b : Nat} (h : l[i]? = some a) (hb : b < a) : (l.set i b).sum < l.sum := by
  induction l generalizing i with
  | nil => cases h
  | cons x l ih =>
    cases i with
    | zero => cases h; simp only [List.set_cons_zero, List.sum_cons]; omega
    | succ i =>
      simp only [List.set_cons_succ, List.sum_cons]
      have := ih (i := i) (by simpa using h)
      omega

theorem measure_set {s : CacheState} {i : Nat} {e : Str} {c d : CallState} (h : s.calls[i]? = some (e, c))
    (hd : left d < left c) : ((s.calls.set i (e, d)).map fun c => left c.2).sum < measure s := by
  rw [List.map_set]
  exact sum_set (i := i) (a := left c) (by rw [List.getElem?_map, h]; rfl) hd

end Cache

variable {valid : Str → Bool} {patterns : List Str}

/-- Whatever goroutine returns, in whatever interleaving, has an object compiled from its own pattern. -/
theorem C79_right_pattern {s : CacheState} (h : CacheReach valid patterns s) (i p : Nat) (e : Str)
    (hi : s.calls[i]? = some (e, .done p)) : patterns[i]? = some e ∧ s.objects[p]? = some e ∧ valid e = true := by
  have inv := Cache.inv_reach h
  have hp := inv.cached e p (inv.done e p (List.mem_of_getElem? hi))
  refine ⟨?_, hp, inv.ok p e hp⟩
  rw [← inv.calls, List.getElem?_map, hi]
  rfl

/-- Goroutines with the same pattern get the same object, also when they all compile it. -/
theorem C79_same_object {s : CacheState} (h : CacheReach valid patterns s) (i j p q : Nat) (e : Str)
    (hi : s.calls[i]? = some (e, .done p)) (hj : s.calls[j]? = some (e, .done q)) : p = q := by
  have inv := Cache.inv_reach h
  have h1 := inv.done e p (List.mem_of_getElem? hi)
  rw [inv.done e q (List.mem_of_getElem? hj)] at h1
  cases h1
  rfl

/-- Goroutines with different patterns get different objects. -/
theorem C79_different_objects {s : CacheState} (h : CacheReach valid patterns s) (i j p q : Nat) (e e' : Str) (hne : e ≠ e')
    (hi : s.calls[i]? = some (e, .done p)) (hj : s.calls[j]? = some (e', .done q)) : p ≠ q := by
  rintro rfl
  have h1 := (C79_right_pattern h i p e hi).2.1
  rw [(C79_right_pattern h j p e' hj).2.1] at h1
  cases h1
  exact hne rfl

/-- What is in the cache stays there: no step replaces or removes an entry or changes an object. -/
theorem C79_stable {s t : CacheState} (hs : CacheStep valid s t) :
    (∀ e p, s.cache e = some p → t.cache e = some p) ∧ ∀ (p : Nat) (e : Str), s.objects[p]? = some e → t.objects[p]? = some e := by
  cases hs with
  | compile i e hi hv =>
    refine ⟨fun _ _ h => h, fun p e' hp => ?_⟩
    dsimp only
    rw [List.getElem?_append_left (List.getElem?_eq_some_iff.1 hp).1]
    exact hp
  | stored i e p hi hc =>
    refine ⟨fun e' q hq => ?_, fun _ _ h => h⟩
    dsimp only
    split
    · rename_i he; rw [he, hc] at hq; cases hq
    · exact hq
  | _ => exact ⟨fun _ _ h => h, fun _ _ h => h⟩

/-- A goroutine panics only with a pattern that does not compile, and does not return with one. -/
theorem C79_panics {s : CacheState} (h : CacheReach valid patterns s) (i : Nat) (e : Str) (c : CallState)
    (hi : s.calls[i]? = some (e, c)) (ho : c.over = true) : c = .panicked ↔ valid e = false := by
  have inv := Cache.inv_reach h
  cases c with
  | done p => simp [(C79_right_pattern h i p e hi).2.2]
  | panicked => simp [inv.panicked e (List.mem_of_getElem? hi)]
  | start => cases ho
  | missed => cases ho
  | compiled p => cases ho

/-- No goroutine ever waits for another one: as long as one is not over, it can take a step itself. -/
theorem C79_progress (s : CacheState) (i : Nat) (e : Str) (c : CallState) (hi : s.calls[i]? = some (e, c))
    (ho : c.over = false) : ∃ t d, CacheStep valid s t ∧ t.calls = s.calls.set i (e, d) ∧ d ≠ c := by
  cases c with
  | start =>
    cases hc : s.cache e with
    | none => exact ⟨_, _, .miss s i e hi hc, rfl, nofun⟩
    | some p => exact ⟨_, _, .hit s i e p hi hc, rfl, nofun⟩
  | missed =>
    cases hv : valid e with
    | true => exact ⟨_, _, .compile s i e hi hv, rfl, nofun⟩
    | false => exact ⟨_, _, .panic s i e hi hv, rfl, nofun⟩
  | compiled p =>
    cases hc : s.cache e with
    | none => exact ⟨_, _, .stored s i e p hi hc, rfl, nofun⟩
    | some q => exact ⟨_, _, .loaded s i e p q hi hc, rfl, nofun⟩
  | done p => cases ho
  | panicked => cases ho

/-- An execution of `n` steps. -/
inductive CacheSteps (valid : Str → Bool) : Nat → CacheState → CacheState → Prop
  | refl (s) : CacheSteps valid 0 s s
  | step {n s t u} : CacheStep valid s t → CacheSteps valid n t u → CacheSteps valid (n + 1) s u

/-- Every execution is over after at most three steps for each goroutine. -/
theorem C79_terminates (n : Nat) (s : CacheState) (h : CacheSteps valid n (.init patterns) s) : n ≤ 3 * patterns.length := by
  have step : ∀ s t, CacheStep valid s t → Cache.measure t < Cache.measure s := by
    intro s t h
    cases h with
    | hit i e p hi _ => exact Cache.measure_set hi (by simp [Cache.left])
    | miss i e hi _ => exact Cache.measure_set hi (by simp [Cache.left])
    | compile i e hi _ => exact Cache.measure_set hi (by simp [Cache.left])
    | panic i e hi _ => exact Cache.measure_set hi (by simp [Cache.left])
    | loaded i e p q hi _ => exact Cache.measure_set hi (by simp [Cache.left])
    | stored i e p hi _ => exact Cache.measure_set hi (by simp [Cache.left])
  have key : ∀ n s t, CacheSteps valid n s t → n ≤ Cache.measure s := by
    intro n s t h
    induction h with
    | refl => omega
    | step hs _ ih => have := step _ _ hs; omega
  have h0 : Cache.measure (.init patterns) = 3 * patterns.length := by
    unfold Cache.measure CacheState.init
    rw [List.map_map]
    show (patterns.map fun _ => 3).sum = _
    generalize patterns = l
    induction l with
    | nil => rfl
    | cons e l ih => rw [List.map_cons, List.sum_cons, ih, List.length_cons]; omega
  rw [← h0]
  exact key n _ s h

-- two goroutines that both miss and both compile end with the object of the first to store
example : ∃ s, CacheReach (fun _ => true) [g!"a", g!"a"] s ∧ s.calls = [(g!"a", .done 1), (g!"a", .done 1)] ∧
    s.objects = [g!"a", g!"a"] := by
  refine ⟨_, .step (.step (.step (.step (.step (.step .init (.miss _ 0 g!"a" rfl rfl)) (.miss _ 1 g!"a" rfl rfl))
    (.compile _ 0 g!"a" rfl rfl)) (.compile _ 1 g!"a" rfl rfl)) (.stored _ 1 g!"a" 1 rfl rfl)) (.loaded _ 0 g!"a" 0 1 rfl rfl), rfl, rfl⟩

end Osv
