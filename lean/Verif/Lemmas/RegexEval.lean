import Verif.Lemmas.Regex
/-!
# Evaluating regular expressions

`first r bol s k f` is the first match of `r` (in priority order) that the continuation `f` accepts.
-/
namespace Osv.Re
open Osv

/-- First match accepted by the continuation. -/
def first {β : Type} (r : Re) (bol : Bool) (s : Str) (k : Caps) (f : Str × Str × Caps → Option β) :
    Option β := (run r bol s k).findSome? f

theorem findSome?_flatMap' {α β γ : Type} (l : List α) (g : α → List β) (f : β → Option γ) :
    (l.flatMap g).findSome? f = l.findSome? fun a => (g a).findSome? f := by
  induction l with
  | nil => rfl
  | cons a l ih =>
    rw [List.flatMap_cons, List.findSome?_append, ih, List.findSome?_cons]
    cases (g a).findSome? f <;> rfl

theorem findSome?_map' {α β γ : Type} (l : List α) (g : α → β) (f : β → Option γ) :
    (l.map g).findSome? f = l.findSome? fun a => f (g a) := by
  induction l with
  | nil => rfl
  | cons a l ih => rw [List.map_cons, List.findSome?_cons, List.findSome?_cons, ih]

theorem head?_eq_first (r : Re) (bol : Bool) (s : Str) (k : Caps) :
    (run r bol s k).head? = first r bol s k some := by
  unfold first
  cases run r bol s k <;> rfl

variable {β : Type} (f : Str × Str × Caps → Option β) (bol : Bool) (s : Str) (k : Caps)

@[simp] theorem first_eps : first eps bol s k f = f ([], s, k) := by
  simp only [first, run, List.findSome?_cons, List.findSome?_nil]; cases f ([], s, k) <;> rfl

@[simp] theorem first_seq (a b : Re) : first (seq a b) bol s k f =
    first a bol s k fun r => first b (bol && r.1.isEmpty) r.2.1 r.2.2 fun t => f (r.1 ++ t.1, t.2) := by
  simp only [first, run, findSome?_flatMap', findSome?_map']

@[simp] theorem first_alt (a b : Re) : first (alt a b) bol s k f =
    (first a bol s k f).or (first b bol s k f) := by
  simp only [first, run, List.findSome?_append]

@[simp] theorem first_cap (n : Nat) (a : Re) : first (cap n a) bol s k f =
    first a bol s k fun r => f (r.1, r.2.1, (n, r.1) :: r.2.2) := by
  simp only [first, run, findSome?_map']

@[simp] theorem first_cls_nil (p : Char → Bool) : first (cls p) bol [] k f = none := rfl

@[simp] theorem first_cls_cons (p : Char → Bool) (c : Char) (cs : Str) :
    first (cls p) bol (c :: cs) k f = if p c then f ([c], cs, k) else none := by
  unfold first run
  split
  · simp only [List.findSome?_cons, List.findSome?_nil]; cases f ([c], cs, k) <;> rfl
  · rfl

@[simp] theorem first_bot : first bot bol s k f = if bol then f ([], s, k) else none := by
  unfold first run
  split
  · simp only [List.findSome?_cons, List.findSome?_nil]; cases f ([], s, k) <;> rfl
  · rfl

@[simp] theorem first_eot : first eot bol s k f = if s.isEmpty then f ([], s, k) else none := by
  unfold first run
  split
  · simp only [List.findSome?_cons, List.findSome?_nil]; cases f ([], s, k) <;> rfl
  · rfl

@[simp] theorem first_ch_cons (d c : Char) (cs : Str) :
    first (ch d) bol (c :: cs) k f = if c = d then f ([c], cs, k) else none := by
  unfold ch
  rw [first_cls_cons]
  simp only [beq_iff_eq]

@[simp] theorem first_ch_nil (d : Char) : first (ch d) bol [] k f = none := rfl

theorem first_opt (a : Re) : first (opt a) bol s k f = (first a bol s k f).or (f ([], s, k)) := by
  simp [opt]

/-- A literal string matches exactly itself. -/
theorem first_lit (w : Str) : first (lit w) bol s k f =
    if w.isPrefixOf s then f (w, s.drop w.length, k) else none := by
  induction w generalizing bol s k f with
  | nil => simp [lit]
  | cons c w ih =>
    cases w with
    | nil =>
      cases s with
      | nil => simp [lit]
      | cons d ds =>
        simp only [lit, first_ch_cons]
        by_cases h : d = c
        · subst h; simp
        · simp [h, List.isPrefixOf, Ne.symm h]
    | cons c' w =>
      rw [lit, first_seq]
      · cases s with
        | nil => simp
        | cons d ds =>
          rw [first_ch_cons]
          by_cases h : d = c
          · subst h
            simp [ih, List.isPrefixOf]
          · simp [h, List.isPrefixOf, Ne.symm h]
      · simp

theorem starLoop_cls (p : Char → Bool) (g : Bool) (fuel fuel' : Nat) (bol bol' : Bool) (s : Str) (k : Caps)
    (h : s.length ≤ fuel) (h' : s.length ≤ fuel') :
    starLoop (run (cls p)) g fuel bol s k = starLoop (run (cls p)) g fuel' bol' s k := by
  induction s generalizing fuel fuel' bol bol' with
  | nil => cases fuel <;> cases fuel' <;> simp [starLoop, run]
  | cons c cs ih =>
    obtain ⟨n, rfl⟩ : ∃ n, fuel = n + 1 := ⟨fuel - 1, by simp at h; omega⟩
    obtain ⟨m, rfl⟩ : ∃ m, fuel' = m + 1 := ⟨fuel' - 1, by simp at h'; omega⟩
    simp only [List.length_cons, Nat.add_le_add_iff_right] at h h'
    unfold starLoop
    by_cases hp : p c
    · simp only [run, hp, if_true, List.flatMap_cons, List.flatMap_nil, List.isEmpty_cons,
        Bool.false_eq_true, if_false]
      rw [ih n m false false h h']
    · simp [run, hp]

/-- One step of a greedy class repetition. -/
theorem first_starG_cons (p : Char → Bool) (c : Char) (cs : Str) :
    first (star true (cls p)) bol (c :: cs) k f =
      if p c then (first (star true (cls p)) false cs k fun t => f (c :: t.1, t.2)).or (f ([], c :: cs, k))
      else f ([], c :: cs, k) := by
  unfold first
  simp only [run, List.length_cons]
  rw [starLoop]
  by_cases hp : p c
  · simp only [run, hp, if_true, List.flatMap_cons, List.flatMap_nil, List.isEmpty_cons,
      Bool.false_eq_true, if_false, List.append_nil, List.findSome?_append, findSome?_map',
      List.singleton_append, List.findSome?_cons, List.findSome?_nil]
    congr 1
    cases f ([], c :: cs, k) <;> rfl
  · simp only [run, hp]
    simp

@[simp] theorem first_star_nil (g : Bool) (p : Char → Bool) :
    first (star g (cls p)) bol [] k f = f ([], [], k) := by
  unfold first
  simp only [run, starLoop, List.length_nil, List.findSome?_cons, List.findSome?_nil]
  cases f ([], [], k) <;> rfl

/-- One step of a lazy class repetition. -/
theorem first_starL_cons (p : Char → Bool) (c : Char) (cs : Str) :
    first (star false (cls p)) bol (c :: cs) k f =
      (f ([], c :: cs, k)).or
        (if p c then first (star false (cls p)) false cs k fun t => f (c :: t.1, t.2) else none) := by
  unfold first
  simp only [run, List.length_cons]
  rw [starLoop]
  by_cases hp : p c
  · simp only [run, hp, if_true, List.flatMap_cons, List.flatMap_nil, List.isEmpty_cons,
      Bool.false_eq_true, if_false, List.append_nil, findSome?_map', List.findSome?_cons]
    cases f ([], c :: cs, k) <;> rfl
  · simp only [run, hp]
    simp

/-- No accepted prefix of class runes: no match. -/
theorem first_star_none (g : Bool) (p : Char → Bool)
    (h : ∀ y z, s = y ++ z → y.all p = true → f (y, z, k) = none) :
    first (star g (cls p)) bol s k f = none := by
  induction s generalizing bol f with
  | nil => simpa using h [] [] rfl rfl
  | cons c cs ih =>
    have h0 := h [] (c :: cs) rfl rfl
    have hr : p c = true → first (star g (cls p)) false cs k (fun t => f (c :: t.1, t.2)) = none := by
      intro hp
      apply ih
      intro y z hs hy
      exact h (c :: y) z (by simp [hs]) (by simp [hp] at hy ⊢; exact hy)
    cases g
    · rw [first_starL_cons, h0]
      split
      · rename_i hp; simpa using hr hp
      · rfl
    · rw [first_starG_cons, h0]
      split
      · rename_i hp; rw [hr hp]; rfl
      · rfl

/-- A greedy class repetition stops at the longest accepted prefix. -/
theorem first_starG_some (p : Char → Bool) (x rest : Str) (v : β) (hx : x.all p = true)
    (hf : f (x, rest, k) = some v)
    (hmax : ∀ y z, rest = y ++ z → y ≠ [] → y.all p = true → f (x ++ y, z, k) = none) :
    first (star true (cls p)) bol (x ++ rest) k f = some v := by
  induction x generalizing bol f with
  | nil =>
    cases rest with
    | nil => simpa using hf
    | cons c cs =>
      simp only [List.nil_append] at *
      rw [first_starG_cons]
      split
      · rename_i hp
        rw [first_star_none]
        · simpa using hf
        · intro y z hs hy
          exact hmax (c :: y) z (by simp [hs]) (by simp) (by simp [hp] at hy ⊢; exact hy)
      · exact hf
  | cons c x ih =>
    simp only [List.all_cons, Bool.and_eq_true] at hx
    rw [List.cons_append, first_starG_cons, if_pos hx.1, ih (fun t => f (c :: t.1, t.2)) false hx.2 hf]
    · rfl
    · intro y z h1 h2 h3
      exact hmax y z h1 h2 h3

/-- A greedy class repetition consumes the maximal run if the continuation accepts it. -/
theorem first_starG_run (p : Char → Bool) (x rest : Str) (v : β) (hx : x.all p = true)
    (hstop : ∀ c ∈ rest.head?, p c = false) (hf : f (x, rest, k) = some v) :
    first (star true (cls p)) bol (x ++ rest) k f = some v := by
  apply first_starG_some f bol k p x rest v hx hf
  intro y z hr hy hall
  cases y with
  | nil => exact absurd rfl hy
  | cons c y =>
    have : p c = false := hstop c (by simp [hr])
    simp [this] at hall

/-- A lazy class repetition stops at the shortest accepted prefix. -/
theorem first_starL_some (p : Char → Bool) (x rest : Str) (v : β) (hx : x.all p = true)
    (hf : f (x, rest, k) = some v)
    (hmin : ∀ y z, x = y ++ z → z ≠ [] → f (y, z ++ rest, k) = none) :
    first (star false (cls p)) bol (x ++ rest) k f = some v := by
  induction x generalizing bol f with
  | nil =>
    cases rest with
    | nil => simpa using hf
    | cons c cs => simp only [List.nil_append] at *; rw [first_starL_cons, hf]; rfl
  | cons c x ih =>
    simp only [List.all_cons, Bool.and_eq_true] at hx
    rw [List.cons_append, first_starL_cons]
    have h0 := hmin [] (c :: x) rfl (by simp)
    simp only [List.cons_append] at h0
    rw [h0, if_pos hx.1, ih (fun t => f (c :: t.1, t.2)) false hx.2 hf]
    · rfl
    · intro y z h1 h2
      exact hmin (c :: y) z (by simp [h1]) h2

theorem find_eq_findFrom (r : Re) (s : Str) : find r s = findFrom r true s := rfl

/-- Match at the current position. -/
theorem findFrom_here (r : Re) (bol : Bool) (s : Str) (t : Str × Str × Caps)
    (h : first r bol s [] some = some t) :
    findFrom r bol s = some ⟨[], t.1, t.2.1, t.2.2⟩ := by
  cases s with
  | nil => simp [findFrom, head?_eq_first, h]
  | cons c cs => simp only [findFrom, head?_eq_first, h]

/-- No match here: search from the next position. -/
theorem findFrom_next (r : Re) (bol : Bool) (c : Char) (cs : Str)
    (h : first r bol (c :: cs) [] some = none) :
    findFrom r bol (c :: cs) = (findFrom r false cs).map fun f => { f with pre := c :: f.pre } := by
  simp only [findFrom, head?_eq_first, h]

theorem findFrom_nil (r : Re) (bol : Bool) (h : first r bol [] [] some = none) :
    findFrom r bol [] = none := by simp [findFrom, head?_eq_first, h]

/-- An expression that can only start at the beginning of the text. -/
theorem findFrom_anchored (r : Re) (s : Str) (h : ∀ s', first r false s' [] some = none) :
    findFrom r false s = none := by
  induction s with
  | nil => exact findFrom_nil r false (h _)
  | cons c cs ih => rw [findFrom_next r false c cs (h _), ih]; rfl

theorem find_anchored (r : Re) (s : Str) (h : ∀ s', first r false s' [] some = none) :
    find r s = (first r true s [] some).map fun t => ⟨[], t.1, t.2.1, t.2.2⟩ := by
  unfold find
  cases hf : first r true s [] some with
  | some t => rw [findFrom_here r true s t hf]; rfl
  | none =>
    cases s with
    | nil => rw [findFrom_nil r true hf]; rfl
    | cons c cs => rw [findFrom_next r true c cs hf, findFrom_anchored r cs h]; rfl

/-- `[p]+` found in a text: skip to the first run and take all of it. -/
theorem findFrom_plus_cls (p : Char → Bool) (bol : Bool) (s : Str) :
    findFrom (plus (cls p)) bol s =
      let pre := s.takeWhile (fun c => !p c)
      let rest := s.dropWhile (fun c => !p c)
      if rest.isEmpty then none else some ⟨pre, rest.takeWhile p, rest.dropWhile p, []⟩ := by
  induction s generalizing bol with
  | nil => simp [findFrom_nil, plus]
  | cons c cs ih =>
    by_cases hp : p c
    · have h1 : first (plus (cls p)) bol (c :: cs) [] some =
          some (c :: cs.takeWhile p, cs.dropWhile p, []) := by
        simp only [plus, first_seq, first_cls_cons, hp, if_true]
        have e : cs = cs.takeWhile p ++ cs.dropWhile p := (List.takeWhile_append_dropWhile).symm
        conv => lhs; rw [e]
        apply first_starG_run
        · simp
        · intro d hd
          have := List.head?_dropWhile_not p cs
          cases h : cs.dropWhile p with
          | nil => simp [h] at hd
          | cons a as => simp [h] at this hd; rw [← hd]; exact this
        · simp
      rw [findFrom_here _ _ _ _ h1]
      simp [hp]
    · have h1 : first (plus (cls p)) bol (c :: cs) [] some = none := by
        simp [plus, hp]
      rw [findFrom_next _ _ _ _ h1, ih]
      simp only [hp, List.takeWhile_cons, List.dropWhile_cons]
      simp only [Bool.not_false, if_true]
      split <;> rfl

end Osv.Re
