import Verif.Go.Regex
/-!
# The regular expression engine is sound and complete

`Matches` is the usual relational semantics of regular expressions (with captures and anchors).  The
engine enumerates exactly the matches of the relation.
-/
namespace Osv.Re
open Osv

/-- `Matches r bol k x rest k'`: at a position (`bol`: start of text) followed by `x ++ rest`, the
expression can consume exactly `x`, turning the captures `k` into `k'`. -/
inductive Matches : Re → Bool → Caps → Str → Str → Caps → Prop
  | eps {bol k rest} : Matches eps bol k [] rest k
  | cls {p bol k c rest} : p c = true → Matches (cls p) bol k [c] rest k
  | seq {a b bol k k₁ k₂ x y rest} : Matches a bol k x (y ++ rest) k₁ →
      Matches b (bol && x.isEmpty) k₁ y rest k₂ → Matches (seq a b) bol k (x ++ y) rest k₂
  | altL {a b bol k k' x rest} : Matches a bol k x rest k' → Matches (alt a b) bol k x rest k'
  | altR {a b bol k k' x rest} : Matches b bol k x rest k' → Matches (alt a b) bol k x rest k'
  | starNil {g a bol k rest} : Matches (star g a) bol k [] rest k
  | starCons {g a bol k k₁ k₂ x y rest} : x ≠ [] → Matches a bol k x (y ++ rest) k₁ →
      Matches (star g a) false k₁ y rest k₂ → Matches (star g a) bol k (x ++ y) rest k₂
  | cap {n a bol k k' x rest} : Matches a bol k x rest k' → Matches (cap n a) bol k x rest ((n, x) :: k')
  | bot {k rest} : Matches bot true k [] rest k
  | eot {bol k} : Matches eot bol k [] [] k

theorem starLoop_sound (a : Re) (g : Bool)
    (ih : ∀ bol s k x rest k', (x, rest, k') ∈ run a bol s k → s = x ++ rest ∧ Matches a bol k x rest k')
    (fuel : Nat) : ∀ bol s k x rest k', (x, rest, k') ∈ starLoop (run a) g fuel bol s k →
      s = x ++ rest ∧ Matches (star g a) bol k x rest k' := by
  induction fuel with
  | zero =>
    intro bol s k x rest k' h
    simp only [starLoop, List.mem_singleton, Prod.mk.injEq] at h
    obtain ⟨rfl, rfl, rfl⟩ := h
    exact ⟨rfl, .starNil⟩
  | succ n ihn =>
    intro bol s k x rest k' h
    have h' : (x, rest, k') ∈ ((run a bol s k).flatMap fun r =>
        if r.1.isEmpty then [] else (starLoop (run a) g n false r.2.1 r.2.2).map fun t => (r.1 ++ t.1, t.2)) ∨
        (x, rest, k') = ([], s, k) := by
      unfold starLoop at h
      cases g
      · simpa [or_comm] using h
      · simpa using h
    rcases h' with h' | h'
    · rw [List.mem_flatMap] at h'
      obtain ⟨⟨y, r, k₁⟩, h1, h2⟩ := h'
      by_cases hy : y.isEmpty
      · simp [hy] at h2
      · rw [if_neg hy] at h2
        rw [List.mem_map] at h2
        obtain ⟨⟨z, r', k₂⟩, h3, h4⟩ := h2
        simp only [Prod.mk.injEq] at h4
        obtain ⟨rfl, rfl, rfl⟩ := h4
        obtain ⟨rfl, m2⟩ := ihn _ _ _ _ _ _ h3
        obtain ⟨rfl, m1⟩ := ih _ _ _ _ _ _ h1
        refine ⟨by simp, .starCons (by simpa using hy) m1 m2⟩
    · simp only [Prod.mk.injEq] at h'
      obtain ⟨rfl, rfl, rfl⟩ := h'
      exact ⟨rfl, .starNil⟩

theorem run_sound (r : Re) : ∀ bol s k x rest k', (x, rest, k') ∈ run r bol s k →
    s = x ++ rest ∧ Matches r bol k x rest k' := by
  induction r with
  | eps =>
    intro bol s k x rest k' h
    simp only [run, List.mem_singleton, Prod.mk.injEq] at h
    obtain ⟨rfl, rfl, rfl⟩ := h
    exact ⟨rfl, .eps⟩
  | cls p =>
    intro bol s k x rest k' h
    cases s with
    | nil => simp [run] at h
    | cons c cs =>
      simp only [run] at h
      split at h
      · simp only [List.mem_singleton, Prod.mk.injEq] at h
        obtain ⟨rfl, rfl, rfl⟩ := h
        rename_i hp
        exact ⟨rfl, .cls hp⟩
      · simp at h
  | seq a b iha ihb =>
    intro bol s k x rest k' h
    simp only [run, List.mem_flatMap, List.mem_map] at h
    obtain ⟨⟨y, r, k₁⟩, h1, ⟨z, r', k₂⟩, h3, h4⟩ := h
    simp only [Prod.mk.injEq] at h4
    obtain ⟨rfl, rfl, rfl⟩ := h4
    obtain ⟨rfl, m2⟩ := ihb _ _ _ _ _ _ h3
    obtain ⟨rfl, m1⟩ := iha _ _ _ _ _ _ h1
    exact ⟨by simp, .seq m1 m2⟩
  | alt a b iha ihb =>
    intro bol s k x rest k' h
    simp only [run, List.mem_append] at h
    rcases h with h | h
    · obtain ⟨h1, h2⟩ := iha _ _ _ _ _ _ h
      exact ⟨h1, .altL h2⟩
    · obtain ⟨h1, h2⟩ := ihb _ _ _ _ _ _ h
      exact ⟨h1, .altR h2⟩
  | star g a ih =>
    intro bol s k x rest k' h
    simp only [run] at h
    exact starLoop_sound a g ih _ _ _ _ _ _ _ h
  | cap n a ih =>
    intro bol s k x rest k' h
    simp only [run, List.mem_map, Prod.mk.injEq] at h
    obtain ⟨⟨y, r, k₁⟩, h1, rfl, rfl, rfl⟩ := h
    obtain ⟨h2, h3⟩ := ih _ _ _ _ _ _ h1
    exact ⟨h2, .cap h3⟩
  | bot =>
    intro bol s k x rest k' h
    simp only [run] at h
    cases bol
    · simp at h
    · simp only [if_true, List.mem_singleton, Prod.mk.injEq] at h
      obtain ⟨rfl, rfl, rfl⟩ := h
      exact ⟨rfl, .bot⟩
  | eot =>
    intro bol s k x rest k' h
    simp only [run] at h
    cases s with
    | nil =>
      simp only [List.isEmpty_nil, if_true, List.mem_singleton, Prod.mk.injEq] at h
      obtain ⟨rfl, rfl, rfl⟩ := h
      exact ⟨rfl, .eot⟩
    | cons c cs => simp at h

theorem starLoop_mem_nil (body : Bool → Str → Caps → List (Str × Str × Caps)) (g : Bool) (fuel : Nat)
    (bol : Bool) (s : Str) (k : Caps) : ([], s, k) ∈ starLoop body g fuel bol s k := by
  cases fuel with
  | zero => simp [starLoop]
  | succ n => cases g <;> simp [starLoop]

theorem run_complete {r : Re} {bol k x rest k'} (h : Matches r bol k x rest k') :
    (x, rest, k') ∈ run r bol (x ++ rest) k := by
  induction h with
  | eps => simp [run]
  | cls hp => simp [run, hp]
  | seq _ _ ih1 ih2 =>
    simp only [run, List.mem_flatMap, List.mem_map]
    refine ⟨_, by rw [List.append_assoc]; exact ih1, _, ih2, rfl⟩
  | altL _ ih => simp [run, ih]
  | altR _ ih => simp [run, ih]
  | starNil => exact starLoop_mem_nil _ _ _ _ _ _
  | @starCons g a bol k k₁ k₂ x y rest hx _ _ ih1 ih2 =>
    simp only [run] at ih2 ⊢
    -- more fuel than needed does not lose matches
    have key : ∀ (f f' : Nat) bol s k t, f ≤ f' → t ∈ starLoop (run a) g f bol s k →
        t ∈ starLoop (run a) g f' bol s k := by
      intro f
      induction f with
      | zero =>
        intro f' bol s k t _ ht
        simp only [starLoop, List.mem_singleton] at ht
        rw [ht]; exact starLoop_mem_nil _ _ _ _ _ _
      | succ n ih =>
        intro f' bol s k t hf ht
        obtain ⟨m, rfl⟩ : ∃ m, f' = m + 1 := ⟨f' - 1, by omega⟩
        have hsub : ∀ u, u ∈ ((run a bol s k).flatMap fun r =>
            if r.1.isEmpty then [] else (starLoop (run a) g n false r.2.1 r.2.2).map fun t => (r.1 ++ t.1, t.2)) →
            u ∈ ((run a bol s k).flatMap fun r =>
            if r.1.isEmpty then [] else (starLoop (run a) g m false r.2.1 r.2.2).map fun t => (r.1 ++ t.1, t.2)) := by
          intro u hu
          rw [List.mem_flatMap] at hu ⊢
          obtain ⟨w, hw, hu⟩ := hu
          refine ⟨w, hw, ?_⟩
          split
          · rename_i he; simp [he] at hu
          · rename_i he
            rw [if_neg he, List.mem_map] at hu
            rw [List.mem_map]
            obtain ⟨z, hz, rfl⟩ := hu
            exact ⟨z, ih m _ _ _ _ (by omega) hz, rfl⟩
        unfold starLoop at ht ⊢
        cases g
        · simp only [Bool.false_eq_true, if_false, List.mem_cons] at ht ⊢
          rcases ht with ht | ht
          · exact .inl ht
          · exact .inr (hsub t ht)
        · simp only [if_true, List.mem_append, List.mem_singleton] at ht ⊢
          rcases ht with ht | ht
          · exact .inl (hsub t ht)
          · exact .inr ht
    have hlen : (x ++ y ++ rest).length = (x ++ y ++ rest).length - 1 + 1 := by
      have : 0 < x.length := List.length_pos_iff.mpr hx
      simp; omega
    rw [hlen]
    have hmem : (x ++ y, rest, k₂) ∈ ((run a bol (x ++ y ++ rest) k).flatMap fun r =>
        if r.1.isEmpty then [] else (starLoop (run a) g ((x ++ y ++ rest).length - 1) false r.2.1 r.2.2).map
          fun t => (r.1 ++ t.1, t.2)) := by
      rw [List.mem_flatMap]
      refine ⟨(x, y ++ rest, k₁), by rw [List.append_assoc]; exact ih1, ?_⟩
      rw [if_neg (by simpa using hx), List.mem_map]
      refine ⟨(y, rest, k₂), key _ _ _ _ _ _ ?_ ih2, rfl⟩
      have : 0 < x.length := List.length_pos_iff.mpr hx
      simp; omega
    unfold starLoop
    cases g
    · exact List.mem_cons_of_mem _ hmem
    · exact List.mem_append_left _ hmem
  | cap _ ih => simp only [run, List.mem_map]; exact ⟨_, ih, rfl⟩
  | bot => simp [run]
  | eot => simp [run]

/-- The engine enumerates exactly the matches of the relational semantics. -/
theorem mem_run_iff (r : Re) (bol : Bool) (s : Str) (k : Caps) (x rest : Str) (k' : Caps) :
    (x, rest, k') ∈ run r bol s k ↔ s = x ++ rest ∧ Matches r bol k x rest k' := by
  constructor
  · exact run_sound r bol s k x rest k'
  · rintro ⟨rfl, h⟩
    exact run_complete h

theorem findFrom_sound (r : Re) (bol : Bool) (s : Str) (f : Found) (h : findFrom r bol s = some f) :
    s = f.pre ++ f.matched ++ f.post ∧ Matches r (bol && f.pre.isEmpty) [] f.matched f.post f.caps := by
  induction s generalizing bol f with
  | nil =>
    simp only [findFrom, Option.map_eq_some_iff] at h
    obtain ⟨⟨x, rest, k⟩, h1, rfl⟩ := h
    have := run_sound r bol [] [] x rest k (List.mem_of_mem_head? h1)
    simpa using this
  | cons c cs ih =>
    simp only [findFrom] at h
    split at h
    · rename_i t ht
      obtain ⟨x, rest, k⟩ := t
      cases h
      have := run_sound r bol (c :: cs) [] x rest k (List.mem_of_mem_head? ht)
      simpa using this
    · rw [Option.map_eq_some_iff] at h
      obtain ⟨g, hg, rfl⟩ := h
      obtain ⟨h1, h2⟩ := ih _ _ hg
      constructor
      · simp [h1]
      · simpa using h2

theorem findFrom_none (r : Re) (bol : Bool) (s : Str) (h : findFrom r bol s = none) :
    ∀ pre x post k, s = pre ++ x ++ post → ¬ Matches r (bol && pre.isEmpty) [] x post k := by
  induction s generalizing bol with
  | nil =>
    intro pre x post k hs hm
    have hs' : (pre = [] ∧ x = []) ∧ post = [] := by simpa [and_assoc] using hs.symm
    obtain ⟨⟨rfl, rfl⟩, rfl⟩ := hs'
    have := run_complete hm
    simp only [findFrom, Option.map_eq_none_iff, List.head?_eq_none_iff] at h
    simp [h] at this
  | cons c cs ih =>
    intro pre x post k hs hm
    simp only [findFrom] at h
    split at h
    · cases h
    · rename_i hn
      rw [List.head?_eq_none_iff] at hn
      cases pre with
      | nil =>
        have := run_complete hm
        simp only [List.nil_append] at hs
        simp [← hs, hn] at this
      | cons d pre =>
        rw [Option.map_eq_none_iff] at h
        simp only [List.cons_append, List.cons.injEq] at hs
        exact ih false h pre x post k hs.2 (by simpa using hm)

/-- `MatchString` is true exactly when the expression matches somewhere in the text. -/
theorem isMatch_iff (r : Re) (s : Str) :
    isMatch r s = true ↔ ∃ pre x post k, s = pre ++ x ++ post ∧ Matches r pre.isEmpty [] x post k := by
  unfold isMatch find
  constructor
  · intro h
    rw [Option.isSome_iff_exists] at h
    obtain ⟨f, hf⟩ := h
    obtain ⟨h1, h2⟩ := findFrom_sound r true s f hf
    exact ⟨_, _, _, _, h1, by simpa using h2⟩
  · rintro ⟨pre, x, post, k, hs, hm⟩
    cases h : findFrom r true s with
    | some f => rfl
    | none => exact absurd (by simpa using hm) (findFrom_none r true s h pre x post k hs)

end Osv.Re
