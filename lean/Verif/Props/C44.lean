import Verif.Props.C45
import Verif.Lemmas.Scanner
import Verif.Lemmas.RegexMatch
/-!
# C44: yarn.lock blocks
-/
namespace Osv
open Str Spec

namespace Yarn

/-- The blocks of a state of the loop. -/
def allGroups (st : List (List Str) × List Str) : List (List Str) := if st.2 = [] then st.1 else st.1 ++ [st.2]

theorem group_eq (lines : List Str) : groupPackageLines lines = allGroups (lines.foldl yarnGroupStep ([], [])) := by
  unfold groupPackageLines allGroups
  dsimp only
  generalize lines.foldl yarnGroupStep ([], []) = st
  obtain ⟨gs, g⟩ := st
  cases g <;> simp

theorem kept_append (a b : List Str) : yarnKept (a ++ b) = yarnKept a ++ yarnKept b := by simp [yarnKept]

theorem kept_one (l : Str) : yarnKept [l] = if shouldSkipYarnLine l then [] else [l] := by
  unfold yarnKept shouldSkipYarnLine
  cases l with
  | nil => rfl
  | cons c l => 
    by_cases h : c = '#'
    · subst h; rfl
    · simp [hasPrefix, List.isPrefixOf, h, Ne.symm h]

theorem indented_iff (l : Str) : hasPrefix l g!" " = true ↔ Indented l := by
  rw [hasPrefix_iff]; rfl

theorem tail_concat {α : Type} (xs : List α) (y : α) (z : α) (h : z ∈ (xs ++ [y]).tail) : z ∈ xs.tail ∨ (xs ≠ [] ∧ z = y) := by
  cases xs with
  | nil => simp at h
  | cons x xs => simp at h ⊢; exact h

theorem mem_tail_concat {α : Type} (xs : List α) (y z : α) (h : z ∈ xs.tail) : z ∈ (xs ++ [y]).tail := by
  cases xs with
  | nil => simp at h
  | cons x xs => simp at h ⊢; exact Or.inl h

theorem step_blocks (seen : List Str) (st : List (List Str) × List Str) (line : Str)
    (h : Blocks seen (allGroups st)) (h0 : st.2 = [] → st.1 = []) :
    Blocks (seen ++ [line]) (allGroups (yarnGroupStep st line)) ∧
    ((yarnGroupStep st line).2 = [] → (yarnGroupStep st line).1 = []) := by
  obtain ⟨gs, g⟩ := st
  obtain ⟨hf, hg, ht⟩ := h
  unfold yarnGroupStep
  by_cases hs : shouldSkipYarnLine line = true
  · rw [if_pos hs]
    refine ⟨⟨?_, hg, ht⟩, h0⟩
    rw [kept_append, kept_one, if_pos hs, List.append_nil]; exact hf
  · rw [if_neg hs]
    have hk : yarnKept (seen ++ [line]) = yarnKept seen ++ [line] := by rw [kept_append, kept_one, if_neg hs]
    by_cases hi : hasPrefix line g!" " = true
    · rw [if_neg (by simp [hi])]
      have hi' := (indented_iff _).1 hi
      refine ⟨?_, by simp⟩
      unfold allGroups
      dsimp only
      rw [if_neg (by simp)]
      cases g with
      | nil =>
        have := h0 rfl
        dsimp only at this
        subst this
        unfold allGroups at hf
        simp at hf
        exact ⟨by rw [hk, ← hf]; simp, by simpa using ⟨line, [], ⟨rfl, rfl⟩, by simp⟩, by simp⟩
      | cons a g =>
        have e : allGroups (gs, a :: g) = gs ++ [a :: g] := by simp [allGroups]
        rw [e] at hf hg ht
        refine ⟨by rw [hk, ← hf]; simp, ?_, ?_⟩
        · intro x hx
          rcases List.mem_append.1 hx with hx | hx
          · exact hg x (by simp [hx])
          · simp at hx
            obtain ⟨b, t, e, hin⟩ := hg (a :: g) (by simp)
            cases e
            refine ⟨a, g ++ [line], by simp [hx], ?_⟩
            intro l hl
            rcases List.mem_append.1 hl with hl | hl
            · exact hin l hl
            · simp at hl; rw [hl]; exact hi'
        · intro x hx
          rcases tail_concat _ _ _ hx with hx | ⟨hne, rfl⟩
          · exact ht x (mem_tail_concat _ _ _ hx)
          · obtain ⟨b, t, e, hin⟩ := ht (a :: g) (by cases gs with | nil => exact absurd rfl hne | cons => simp)
            cases e
            exact ⟨a, g ++ [line], by simp, hin⟩
    · rw [if_pos (by simp [hi])]
      refine ⟨?_, by simp⟩
      have e : allGroups ((if (gs, g).2.length > 0 then (gs, g).1 ++ [(gs, g).2] else (gs, g).1), [line]) = allGroups (gs, g) ++ [[line]] := by
        unfold allGroups
        cases g <;> simp
      rw [e]
      refine ⟨by rw [hk, ← hf]; simp, ?_, ?_⟩
      · intro x hx
        rcases List.mem_append.1 hx with hx | hx
        · exact hg x hx
        · simp at hx; exact ⟨line, [], hx, by simp⟩
      · intro x hx
        rcases tail_concat _ _ _ hx with hx | ⟨_, rfl⟩
        · exact ht x hx
        · exact ⟨line, [], rfl, fun h => hi ((indented_iff _).2 h)⟩

theorem fold_blocks (lines seen : List Str) (st : List (List Str) × List Str)
    (h : Blocks seen (allGroups st)) (h0 : st.2 = [] → st.1 = []) :
    Blocks (seen ++ lines) (allGroups (lines.foldl yarnGroupStep st)) := by
  induction lines generalizing seen st with
  | nil => simpa using h
  | cons l ls ih =>
    obtain ⟨h1, h2⟩ := step_blocks seen st l h h0
    have := ih (seen ++ [l]) _ h1 h2
    rw [List.foldl_cons]
    simpa using this

theorem split_unique {p : Str → Prop} (t t' r r' : List Str) (ht : ∀ l ∈ t, p l) (ht' : ∀ l ∈ t', p l)
    (hr : ∀ l ∈ r.head?, ¬ p l) (hr' : ∀ l ∈ r'.head?, ¬ p l) (e : t ++ r = t' ++ r') : t = t' ∧ r = r' := by
  induction t generalizing t' with
  | nil =>
    cases t' with
    | nil => exact ⟨rfl, e⟩
    | cons a t' =>
      simp at e
      exact absurd (ht' a (by simp)) (hr a (by simp [e]))
  | cons a t ih =>
    cases t' with
    | nil =>
      simp at e
      exact absurd (ht a (by simp)) (hr' a (by simp [← e]))
    | cons b t' =>
      simp at e
      obtain ⟨rfl, e⟩ := e
      obtain ⟨h1, h2⟩ := ih t' (fun l hl => ht l (by simp [hl])) (fun l hl => ht' l (by simp [hl])) e
      exact ⟨by rw [h1], h2⟩

theorem flatten_head (gs : List (List Str)) (h : ∀ g ∈ gs, ∃ h t, g = h :: t ∧ ¬ Indented h) :
    ∀ l ∈ gs.flatten.head?, ¬ Indented l := by
  intro l hl
  cases gs with
  | nil => simp at hl
  | cons g gs =>
    obtain ⟨a, t, rfl, hi⟩ := h g (by simp)
    simp at hl
    rw [← hl]; exact hi

theorem blocks_unique_aux (gs gs' : List (List Str)) (h : ∀ g ∈ gs, ∃ h t, g = h :: t ∧ ∀ l ∈ t, Indented l)
    (h' : ∀ g ∈ gs', ∃ h t, g = h :: t ∧ ∀ l ∈ t, Indented l)
    (ht : ∀ g ∈ gs.tail, ∃ h t, g = h :: t ∧ ¬ Indented h) (ht' : ∀ g ∈ gs'.tail, ∃ h t, g = h :: t ∧ ¬ Indented h)
    (e : gs.flatten = gs'.flatten) : gs = gs' := by
  induction gs generalizing gs' with
  | nil =>
    cases gs' with
    | nil => rfl
    | cons g gs' => obtain ⟨a, t, rfl, _⟩ := h' g (by simp); simp at e
  | cons g gs ih =>
    obtain ⟨a, t, rfl, hin⟩ := h g (by simp)
    cases gs' with
    | nil => simp at e
    | cons g' gs' =>
      obtain ⟨a', t', rfl, hin'⟩ := h' g' (by simp)
      simp at e
      obtain ⟨rfl, e⟩ := e
      simp only [List.tail_cons] at ht ht'
      obtain ⟨rfl, e2⟩ := split_unique t t' _ _ hin hin' (flatten_head gs ht) (flatten_head gs' ht') e
      rw [ih gs' (fun g hg => h g (by simp [hg])) (fun g hg => h' g (by simp [hg]))
        (fun g hg => ht g (List.mem_of_mem_tail hg)) (fun g hg => ht' g (List.mem_of_mem_tail hg)) e2]

theorem matches_maybe {bol : Bool} {k k' : Caps} {x rest : Str} {c : Char} :
    Re.Matches (.opt (.ch c)) bol k x rest k' ↔ Maybe [c] x ∧ k' = k := by
  rw [Re.matches_opt, Re.matches_ch]
  unfold Maybe
  constructor
  · rintro (⟨h, e⟩ | ⟨h, e⟩)
    · exact ⟨Or.inr h, e⟩
    · exact ⟨Or.inl h, e⟩
  · rintro ⟨h | h, e⟩
    · exact Or.inr ⟨h, e⟩
    · exact Or.inl ⟨h, e⟩

theorem version_whole : ∀ bol k x rest k', Re.Matches reYarnVersion bol k x rest k' → bol = true ∧ rest = [] :=
  Re.cat_whole rfl rfl

theorem version_matches (l : Str) (k : Caps) :
    Re.Matches reYarnVersion true [] l [] k ↔ ∃ v, VersionLine l v ∧ k = [(1, v)] := by
  simp only [reYarnVersion, Re.cat, Re.matches_seq, Re.matches_bot, matches_maybe, Re.matches_plus_cls, Re.matches_ch,
    Re.matches_cap, Re.matches_lit, Re.matches_eot]
  constructor
  · rintro ⟨_, _, _, rfl, ⟨_, rfl, rfl⟩, _, _, _, rfl, ⟨rfl, rfl⟩, a, _, _, rfl, ⟨ha, rfl⟩, _, _, _, rfl, ⟨rfl, rfl⟩,
      b, _, _, rfl, ⟨hb, rfl⟩, c, _, _, rfl, ⟨hc, rfl⟩, _, _, _, rfl, ⟨rfl, rfl⟩, d, _, _, rfl, ⟨hd, rfl⟩, v, _, _, rfl,
      ⟨_, ⟨hne, hv, rfl⟩, rfl⟩, e, _, _, rfl, ⟨he, rfl⟩, rfl, _, rfl⟩
    refine ⟨v, ⟨a, b, c, d, e, ha, hb, hc, hd, he, hne, ?_, by simp⟩, rfl⟩
    intro x hx
    have := hv x hx
    simp only [isYarnVersionChar, Bool.or_eq_true, beq_iff_eq] at this
    simpa only [or_assoc] using this
  · rintro ⟨v, ⟨a, b, c, d, e, ha, hb, hc, hd, he, hne, hv, rfl⟩, rfl⟩
    refine ⟨[], _, _, rfl, ⟨trivial, rfl, rfl⟩, g!"  ", a ++ g!"version" ++ b ++ c ++ g!" " ++ d ++ v ++ e, _, by simp, ⟨rfl, rfl⟩,
      a, g!"version" ++ b ++ c ++ g!" " ++ d ++ v ++ e, _, by simp, ⟨ha, rfl⟩,
      g!"version", b ++ c ++ g!" " ++ d ++ v ++ e, _, by simp, ⟨rfl, rfl⟩,
      b, c ++ g!" " ++ d ++ v ++ e, _, by simp, ⟨hb, rfl⟩, c, g!" " ++ d ++ v ++ e, _, by simp, ⟨hc, rfl⟩,
      g!" ", d ++ v ++ e, _, by simp, ⟨rfl, rfl⟩, d, v ++ e, _, by simp, ⟨hd, rfl⟩,
      v, e, _, rfl, ⟨_, ⟨hne, ?_, rfl⟩, rfl⟩, e, [], _, by simp, ⟨he, rfl⟩, rfl, trivial, rfl⟩
    intro x hx
    have := hv x hx
    simp only [isYarnVersionChar, Bool.or_eq_true, beq_iff_eq]
    simpa only [or_assoc] using this

theorem resolution_whole : ∀ bol k x rest k', Re.Matches reYarnResolution bol k x rest k' → bol = true ∧ rest = [] :=
  Re.cat_whole rfl rfl

theorem resolution_matches (l : Str) (k : Caps) :
    Re.Matches reYarnResolution true [] l [] k ↔ ∃ v, ResolutionLine l v ∧ k = [(1, v)] := by
  simp only [reYarnResolution, Re.cat, Re.matches_seq, Re.matches_bot, matches_maybe, Re.matches_plus_cls, Re.matches_ch,
    Re.matches_cap, Re.matches_lit, Re.matches_alt, Re.matches_eot]
  constructor
  · rintro ⟨_, _, _, rfl, ⟨_, rfl, rfl⟩, _, _, _, rfl, ⟨rfl, rfl⟩, a, _, _, rfl, ⟨ha, rfl⟩, w, _, _, rfl, hw,
      b, _, _, rfl, ⟨hb, rfl⟩, _, _, _, rfl, ⟨rfl, rfl⟩, v, _, _, rfl,
      ⟨_, ⟨hne, hv, rfl⟩, rfl⟩, _, _, _, rfl, ⟨rfl, rfl⟩, rfl, _, rfl⟩
    rw [← or_and_right] at hw
    obtain ⟨hw', rfl⟩ := hw
    refine ⟨v, ⟨a, w, b, ha, hw', hb, hne, ?_, ?_, ?_, by simp⟩, rfl⟩
    all_goals
      intro hm
      have := hv _ hm
      exact absurd this (by decide)
  · rintro ⟨v, ⟨a, w, b, ha, hw, hb, hne, h1, h2, h3, rfl⟩, rfl⟩
    refine ⟨[], _, _, rfl, ⟨trivial, rfl, rfl⟩, g!"  ", a ++ w ++ b ++ g!" \"" ++ v ++ g!"\"", _, by simp, ⟨rfl, rfl⟩,
      a, w ++ b ++ g!" \"" ++ v ++ g!"\"", _, by simp, ⟨ha, rfl⟩,
      w, b ++ g!" \"" ++ v ++ g!"\"", _, by simp, ?_,
      b, g!" \"" ++ v ++ g!"\"", _, by simp, ⟨hb, rfl⟩, g!" \"", v ++ g!"\"", _, by simp, ⟨rfl, rfl⟩,
      v, g!"\"", _, rfl, ⟨_, ⟨hne, ?_, rfl⟩, rfl⟩, g!"\"", [], _, by simp, ⟨rfl, rfl⟩, rfl, trivial, rfl⟩
    · rcases hw with h | h
      · exact Or.inl ⟨h, rfl⟩
      · exact Or.inr ⟨h, rfl⟩
    · intro c hc
      simp only [Bool.and_eq_true, bne_iff_ne, ne_eq]
      refine ⟨⟨?_, ?_⟩, ?_⟩ <;> · rintro rfl; contradiction

/-- A search in lines, for an expression that matches whole lines and captures their value. -/
theorem firstGroup1_spec (re : Re) (R : Str → Str → Prop)
    (hw : ∀ bol k x rest k', Re.Matches re bol k x rest k' → bol = true ∧ rest = [])
    (hm : ∀ l k, Re.Matches re true [] l [] k ↔ ∃ v, R l v ∧ k = [(1, v)]) (lines : List Str) :
    FirstValue R lines (firstGroup1 re lines) := by
  induction lines with
  | nil => exact Or.inr ⟨by simp, rfl⟩
  | cons l ls ih =>
    unfold firstGroup1
    obtain ⟨h1, h2⟩ := Re.find_whole hw l
    cases hf : re.find l with
    | some m =>
      obtain ⟨v, hv, hk⟩ := (hm l _).1 (h1 m hf)
      refine Or.inl ⟨[], l, ls, rfl, ?_, by simp⟩
      dsimp only [Re.Found.group]
      rw [hk]
      exact hv
    | none =>
      have hn : ∀ w, ¬ R l w := fun w hr => h2 hf _ ((hm l _).2 ⟨w, hr, rfl⟩)
      rcases ih with ⟨pre, x, post, e, hx, hp⟩ | ⟨hall, he⟩
      · refine Or.inl ⟨l :: pre, x, post, by rw [e]; rfl, hx, ?_⟩
        intro y hy
        rcases List.mem_cons.1 hy with rfl | hy
        · exact hn
        · exact hp y hy
      · refine Or.inr ⟨?_, he⟩
        intro y hy
        rcases List.mem_cons.1 hy with rfl | hy
        · exact hn
        · exact hall y hy

theorem skip_iff (g : List Str) (hne : g ≠ []) : skipYarnGroup g = false ↔ YarnBlockOfPackage g := by
  cases g with
  | nil => exact absurd rfl hne
  | cons h t =>
    unfold skipYarnGroup YarnBlockOfPackage
    rw [Bool.or_eq_false_iff, ← Bool.not_eq_true (hasSuffix _ _), hasSuffix_iff]
    simp only [List.headD_cons]
    constructor
    · rintro ⟨h1, h2⟩
      exact ⟨h, t, rfl, by simpa using h1, fun u hu => h2 ⟨u, hu⟩⟩
    · rintro ⟨h', t', e, h1, h2⟩
      cases e
      exact ⟨by simpa using h1, fun ⟨u, hu⟩ => h2 u hu⟩

end Yarn

/-- The groups of lines are the blocks of the file: comments and blank lines are ignored, and no other line is lost. -/
theorem C44_blocks (lines : List Str) : Blocks lines (groupPackageLines lines) := by
  rw [Yarn.group_eq]
  have := Yarn.fold_blocks lines [] ([], []) ⟨rfl, by simp [Yarn.allGroups], by simp [Yarn.allGroups]⟩ (fun _ => rfl)
  simpa using this

/-- There is only one way to cut a file into blocks. -/
theorem C44_unique (lines : List Str) (gs gs' : List (List Str)) (h : Blocks lines gs) (h' : Blocks lines gs') : gs = gs' :=
  Yarn.blocks_unique_aux gs gs' h.2.1 h'.2.1 h.2.2 h'.2.2 (h.1.trans h'.1.symm)

/-- The package of a block: its version is that of the first version line, its commit that of the first resolution, and
its name that of its header (`C45_names`). -/
def YarnEntry (g : List Str) (p : PackageDetails) : Prop :=
  YarnBlockOfPackage g ∧ ∃ header v r, g.head? = some header ∧ FirstValue VersionLine g v ∧ FirstValue ResolutionLine g r ∧
    p = ⟨extractYarnPackageName header, v, tryExtractCommit r, g!"npm", g!"npm"⟩

/-- For every file whose lines can be scanned, every block yields exactly one package, in order, except the metadata
and the root workspace. -/
theorem C44_packages (content : Str) (h : (Scanner.scan content).2 = false) :
    (parseYarnLock (some content)).2 = false ∧
    ∃ gs, Blocks (Scanner.scan content).1 gs ∧ Entries YarnEntry gs (parseYarnLock (some content)).1 := by
  unfold parseYarnLock
  dsimp only
  rw [if_neg (by simp [h])]
  refine ⟨rfl, _, C44_blocks _, ?_⟩
  dsimp only
  have hb := (C44_blocks (Scanner.scan content).1).2.1
  generalize groupPackageLines (Scanner.scan content).1 = gs at hb
  rw [foldl_append_filterMap (fun g => if skipYarnGroup g then none else some (parsePackageGroup g)) yarnStep
    (fun acc g => by unfold yarnStep; by_cases hs : skipYarnGroup g = true <;> simp [hs]), List.nil_append]
  induction gs with
  | nil => exact .nil
  | cons g gs ih =>
    have ih := ih (fun x hx => hb x (by simp [hx]))
    obtain ⟨hd, t, rfl, _⟩ := hb g (by simp)
    by_cases hs : skipYarnGroup (hd :: t) = true
    · rw [List.filterMap_cons_none (by simp [hs])]
      exact .skip (fun p hp => absurd ((Yarn.skip_iff _ (by simp)).2 hp.1) (by simp [hs])) ih
    · rw [List.filterMap_cons_some (b := parsePackageGroup (hd :: t)) (by simp [hs])]
      refine .keep ⟨(Yarn.skip_iff _ (by simp)).1 (by simpa using hs), hd, _, _, rfl,
        Yarn.firstGroup1_spec _ _ Yarn.version_whole Yarn.version_matches _,
        Yarn.firstGroup1_spec _ _ Yarn.resolution_whole Yarn.resolution_matches _, rfl⟩ ih

/-- An unreadable file, or a line that is too long, is an error and yields no packages. -/
theorem C44_errors (content : Option Str) (h : ∀ c, content = some c → (Scanner.scan c).2 = true) :
    parseYarnLock content = ([], true) := by
  unfold parseYarnLock
  cases content with
  | none => rfl
  | some c => dsimp only; rw [if_pos (h c rfl)]

/-- The value of a version line is unique. -/
theorem C44_version_unique (l v w : Str) (hv : VersionLine l v) (hw : VersionLine l w) : v = w := by
  have key : ∀ (s x : Str), VersionLine s x → firstGroup1 reYarnVersion [s] = x := by
    intro s x hx
    -- the value is the text after the last space, without quotes
    obtain ⟨a, b, c, d, e, ha, hb, hc, hd, he, hne, hch, rfl⟩ := hx
    have hspec := Yarn.firstGroup1_spec _ _ Yarn.version_whole Yarn.version_matches
      [g!"  " ++ a ++ g!"version" ++ b ++ c ++ g!" " ++ d ++ x ++ e]
    rcases hspec with ⟨pre, l', post, e1, hl, _⟩ | ⟨hall, _⟩
    · have : l' = g!"  " ++ a ++ g!"version" ++ b ++ c ++ g!" " ++ d ++ x ++ e := by
        cases pre with
        | nil => simp at e1; simp [← e1.1]
        | cons p pre => simp at e1
      rw [this] at hl
      revert hl
      generalize firstGroup1 reYarnVersion _ = y
      rintro ⟨a', b', c', d', e', ha', hb', hc', hd', he', hne', hch', e2⟩
      have sp : ∀ (q z r : Str), Maybe ['"'] q → Maybe ['"'] r → (∀ t ∈ z, isWord t = true ∨ t = '-' ∨ t = '.' ∨ t = '+') →
          ' ' ∉ q ++ z ++ r := by
        intro q z r hq hr hz hm
        simp only [List.mem_append] at hm
        rcases hm with (hm | hm) | hm
        · rcases hq with rfl | rfl <;> simp at hm
        · rcases hz _ hm with h | h | h | h <;> revert h <;> decide
        · rcases hr with rfl | rfl <;> simp at hm
      have c1 := cutLast?_append ' ' (g!"  " ++ a ++ g!"version" ++ b ++ c) (d ++ x ++ e) (sp d x e hd he hch)
      have c2 := cutLast?_append ' ' (g!"  " ++ a' ++ g!"version" ++ b' ++ c') (d' ++ y ++ e') (sp d' y e' hd' he' hch')
      have e3 : (g!"  " ++ a ++ g!"version" ++ b ++ c) ++ ' ' :: (d ++ x ++ e) = (g!"  " ++ a' ++ g!"version" ++ b' ++ c') ++ ' ' :: (d' ++ y ++ e') := by
        simpa using e2
      rw [e3, c2] at c1
      have e4 : d' ++ y ++ e' = d ++ x ++ e := (Prod.mk.inj (Option.some.inj c1)).2
      have nq : ∀ (z : Str), (∀ t ∈ z, isWord t = true ∨ t = '-' ∨ t = '.' ∨ t = '+') → '"' ∉ z := by
        intro z hz hm
        rcases hz _ hm with h | h | h | h <;> revert h <;> decide
      have fl : ∀ (q z r : Str), Maybe ['"'] q → Maybe ['"'] r → '"' ∉ z → (q ++ z ++ r).filter (· ≠ '"') = z := by
        intro q z r hq hr hz
        have : z.filter (· ≠ '"') = z := by
          rw [List.filter_eq_self]; intro t ht; simp; rintro rfl; exact hz ht
        rcases hq with rfl | rfl <;> rcases hr with rfl | rfl <;> simpa using this
      rw [← fl d' y e' hd' he' (nq y hch'), e4, fl d x e hd he (nq x hch)]
    · exact absurd ⟨a, b, c, d, e, ha, hb, hc, hd, he, hne, hch, rfl⟩ (hall _ (by simp) x)
  rw [← key l v hv, key l w hw]

/-- A block as yarn 1 writes it. -/
structure YarnWritten where
  /-- header line -/
  header : Str
  /-- first descriptor of the header -/
  descriptor : Str
  name : Str
  version : Str
  /-- text of `resolved` -/
  resolved : Str
  /-- further indented lines -/
  more : List Str

/-- The lines of a block, with the blank line before it. -/
def YarnWritten.lines (w : YarnWritten) : List Str :=
  [[], w.header, g!"  version \"" ++ w.version ++ g!"\"", g!"  resolved \"" ++ w.resolved ++ g!"\""] ++ w.more

/-- The parts are as yarn writes them. -/
structure YarnWritten.OK (w : YarnWritten) : Prop where
  header : YarnHeader w.header w.descriptor
  describes : Describes w.descriptor w.name
  start : ∀ t, w.header ≠ ' ' :: t ∧ w.header ≠ '#' :: t
  workspace : ∀ u, w.header ≠ u ++ g!"@workspace:.\":"
  version : w.version ≠ [] ∧ ∀ x ∈ w.version, isWord x = true ∨ x = '-' ∨ x = '.' ∨ x = '+'
  resolved : w.resolved ≠ [] ∧ ' ' ∉ w.resolved ∧ '\'' ∉ w.resolved ∧ '"' ∉ w.resolved
  more : ∀ l ∈ w.more, Indented l
  lines : ∀ l ∈ w.lines, Scanner.LineOK l

namespace Yarn

theorem header_ne {w : YarnWritten} (h : w.OK) : w.header ≠ [] := by
  obtain ⟨q, e, m, _, _, _, hh⟩ := h.header
  have := describes_at h.describes
  intro hn
  rw [hn] at hh
  have : '@' ∈ ([] : Str) := by rw [hh]; simp [this]
  cases this

/-- A header has an `@`, or in general is not the metadata header. -/
theorem header_meta {w : YarnWritten} (h : w.OK) : w.header ≠ g!"__metadata:" := by
  obtain ⟨q, e, m, _, _, _, hh⟩ := h.header
  have := describes_at h.describes
  intro hn
  rw [hn] at hh
  have : '@' ∈ g!"__metadata:" := by rw [hh]; simp [this]
  exact absurd this (by decide)

theorem first_of {R : Str → Str → Prop} (pre : List Str) (l : Str) (post : List Str) (v v' : Str)
    (hv : FirstValue R (pre ++ l :: post) v') (hp : ∀ x ∈ pre, ∀ w, ¬ R x w) (hl : R l v)
    (hu : ∀ w, R l w → w = v) : v' = v := by
  rcases hv with ⟨pre', l', post', e, hl', hp'⟩ | ⟨hall, _⟩
  · rcases List.append_eq_append_iff.1 e with ⟨a, h1, h2⟩ | ⟨a, h1, h2⟩
    · cases a with
      | nil => simp at h2; obtain ⟨rfl, _⟩ := h2; exact hu _ hl'
      | cons x a =>
        simp at h2
        have : l ∈ pre' := by rw [h1, ← h2.1]; simp
        exact absurd hl (hp' l this v)
    · cases a with
      | nil => simp at h2; obtain ⟨rfl, _⟩ := h2; exact hu _ hl'
      | cons x a =>
        simp at h2
        have : l' ∈ pre := by rw [h1, ← h2.1]; simp
        exact absurd hl' (hp l' this _)
  · exact absurd hl (hall l (by simp) v)

theorem indented_of_version {l v : Str} (h : VersionLine l v) : Indented l := by
  obtain ⟨a, b, c, d, e, _, _, _, _, _, _, _, rfl⟩ := h
  exact ⟨g!" " ++ a ++ g!"version" ++ b ++ c ++ g!" " ++ d ++ v ++ e, by simp⟩

theorem indented_of_resolution {l v : Str} (h : ResolutionLine l v) : Indented l := by
  obtain ⟨a, w, b, _, _, _, _, _, _, _, rfl⟩ := h
  exact ⟨g!" " ++ a ++ w ++ b ++ g!" \"" ++ v ++ g!"\"", by simp⟩

theorem resolution_unique {l v w : Str} (hv : ResolutionLine l v) (hw : ResolutionLine l w) : v = w := by
  obtain ⟨a, x, b, _, _, _, _, hs, _, _, rfl⟩ := hv
  obtain ⟨a', x', b', _, _, _, _, hs', _, _, e⟩ := hw
  have c1 := cutLast?_append ' ' (g!"  " ++ a ++ x ++ b) (g!"\"" ++ v ++ g!"\"") (by simp [hs])
  have c2 := cutLast?_append ' ' (g!"  " ++ a' ++ x' ++ b') (g!"\"" ++ w ++ g!"\"") (by simp [hs'])
  have e3 : (g!"  " ++ a ++ x ++ b) ++ ' ' :: (g!"\"" ++ v ++ g!"\"") = (g!"  " ++ a' ++ x' ++ b') ++ ' ' :: (g!"\"" ++ w ++ g!"\"") := by
    simpa using e
  rw [e3, c2] at c1
  have := (Prod.mk.inj (Option.some.inj c1)).2
  simp at this
  exact this.symm

/-- The lines of a block that are kept. -/
def body (w : YarnWritten) : List Str :=
  w.header :: (g!"  version \"" ++ w.version ++ g!"\"") :: (g!"  resolved \"" ++ w.resolved ++ g!"\"") :: w.more

theorem kept_lines (w : YarnWritten) (h : w.OK) : yarnKept w.lines = body w := by
  have hall : ∀ l ∈ body w, (l ≠ [] && l.head? ≠ some '#') = true := by
    intro l hl
    unfold body at hl
    have hind : Indented l → (l ≠ [] && l.head? ≠ some '#') = true := by
      rintro ⟨u, rfl⟩; simp
    simp only [List.mem_cons] at hl
    rcases hl with rfl | rfl | rfl | hl
    · have h1 := header_ne h
      cases hh : w.header with
      | nil => exact absurd hh h1
      | cons c t =>
        simp
        rintro rfl
        exact (h.start t).2 hh
    · exact hind ⟨g!" version \"" ++ w.version ++ g!"\"", by simp⟩
    · exact hind ⟨g!" resolved \"" ++ w.resolved ++ g!"\"", by simp⟩
    · exact hind (h.more l hl)
  have : w.lines = [] :: body w := rfl
  rw [this]
  unfold yarnKept
  rw [List.filter_cons_of_neg (by simp), List.filter_eq_self.2 hall]

theorem body_entry (w : YarnWritten) (h : w.OK) (p : PackageDetails) (hp : YarnEntry (body w) p) :
    p = ⟨w.name, w.version, tryExtractCommit w.resolved, g!"npm", g!"npm"⟩ := by
  obtain ⟨_, header, v, r, hhead, hv, hr, rfl⟩ := hp
  simp only [body, List.head?_cons, Option.some.injEq] at hhead
  subst hhead
  have hvl : VersionLine (g!"  version \"" ++ w.version ++ g!"\"") w.version :=
    ⟨[], [], [], ['"'], ['"'], Or.inl rfl, Or.inl rfl, Or.inl rfl, Or.inr rfl, Or.inr rfl, h.version.1, h.version.2, by simp⟩
  have hrl : ResolutionLine (g!"  resolved \"" ++ w.resolved ++ g!"\"") w.resolved :=
    ⟨[], g!"resolved", [], Or.inl rfl, Or.inr rfl, Or.inl rfl, h.resolved.1, h.resolved.2.1, h.resolved.2.2.1, h.resolved.2.2.2, by simp⟩
  have hnot : ∀ t, ¬ Indented w.header ∨ t := fun t => Or.inl (fun ⟨u, hu⟩ => (h.start u).1 hu)
  have hni : ¬ Indented w.header := fun ⟨u, hu⟩ => (h.start u).1 hu
  have e1 : v = w.version := first_of [w.header] _ _ _ _ (by simpa [body] using hv)
    (fun x hx y hy => by simp at hx; subst hx; exact hni (indented_of_version hy)) hvl
    (fun y hy => C44_version_unique _ _ _ hy hvl)
  have e2 : r = w.resolved := first_of [w.header, g!"  version \"" ++ w.version ++ g!"\""] _ _ _ _ (by simpa [body] using hr)
    (fun x hx y hy => by
      simp at hx
      rcases hx with rfl | rfl
      · exact hni (indented_of_resolution hy)
      · obtain ⟨a, z, b, ha, hz, hb, _, _, _, _, e⟩ := hy
        rcases ha with rfl | rfl <;> rcases hz with rfl | rfl <;> simp at e) hrl
    (fun y hy => resolution_unique hy hrl)
  rw [e1, e2, C45_names w.header w.descriptor w.name h.header h.describes]

end Yarn

/-- Reading back what yarn 1 writes, after any comment lines, gives exactly the written packages, in order. -/
theorem C44_written (comments : List Str) (ws : List YarnWritten)
    (hc : ∀ l ∈ comments, Scanner.LineOK l ∧ ∃ t, l = '#' :: t) (hw : ∀ w ∈ ws, w.OK) :
    parseYarnLock (some (Scanner.unlines (comments ++ ws.flatMap (·.lines)))) =
      (ws.map fun w => ⟨w.name, w.version, tryExtractCommit w.resolved, g!"npm", g!"npm"⟩, false) := by
  have hscan := Scanner.scan_unlines (comments ++ ws.flatMap (·.lines)) (by
    intro l hl
    rcases List.mem_append.1 hl with h | h
    · exact (hc l h).1
    · obtain ⟨w, hwm, hlw⟩ := List.mem_flatMap.1 h
      exact (hw w hwm).lines l hlw)
  obtain ⟨h1, gs, hb, he⟩ := C44_packages (Scanner.unlines (comments ++ ws.flatMap (·.lines))) (by rw [hscan])
  rw [hscan] at hb
  dsimp only at hb
  have hk : yarnKept (comments ++ ws.flatMap (·.lines)) = (ws.map Yarn.body).flatten := by
    rw [Yarn.kept_append]
    have : yarnKept comments = [] := by
      unfold yarnKept
      rw [List.filter_eq_nil_iff]
      intro l hl
      obtain ⟨_, t, rfl⟩ := hc l hl
      simp
    rw [this, List.nil_append]
    clear hscan h1 hb he this
    induction ws with
    | nil => rfl
    | cons w ws ih =>
      rw [List.flatMap_cons, Yarn.kept_append, Yarn.kept_lines w (hw w (by simp)), ih (fun x hx => hw x (by simp [hx]))]
      rfl
  have hb2 : Blocks (comments ++ ws.flatMap (·.lines)) (ws.map Yarn.body) := by
    refine ⟨hk.symm, ?_, ?_⟩
    · intro g hg
      obtain ⟨w, hwm, rfl⟩ := List.mem_map.1 hg
      refine ⟨w.header, _, rfl, ?_⟩
      intro l hl
      simp only [List.mem_cons] at hl
      rcases hl with rfl | rfl | hl
      · exact ⟨g!" version \"" ++ w.version ++ g!"\"", by simp⟩
      · exact ⟨g!" resolved \"" ++ w.resolved ++ g!"\"", by simp⟩
      · exact (hw w hwm).more l hl
    · intro g hg
      obtain ⟨w, hwm, rfl⟩ := List.mem_map.1 (List.mem_of_mem_tail hg)
      exact ⟨w.header, _, rfl, fun ⟨u, hu⟩ => ((hw w hwm).start u).1 hu⟩
  have := C44_unique _ _ _ hb hb2
  subst this
  have hp : (parseYarnLock (some (Scanner.unlines (comments ++ ws.flatMap (·.lines))))).1 =
      ws.map fun w => ⟨w.name, w.version, tryExtractCommit w.resolved, g!"npm", g!"npm"⟩ := by
    revert he
    generalize (parseYarnLock (some (Scanner.unlines (comments ++ ws.flatMap (·.lines))))).1 = ps
    clear hscan h1 hb hk hb2
    intro he
    induction ws generalizing ps with
    | nil => cases he; rfl
    | cons w ws ih =>
      have hk := hw w (by simp)
      rw [List.map_cons] at he
      cases he with
      | keep ha hrest =>
        rw [Yarn.body_entry w hk _ ha, ih (fun x hx => hw x (by simp [hx])) _ hrest]
        rfl
      | skip hn _ =>
        exfalso
        refine hn _ ⟨⟨w.header, _, rfl, Yarn.header_meta hk, hk.workspace⟩, w.header, _, _, rfl,
          Yarn.firstGroup1_spec _ _ Yarn.version_whole Yarn.version_matches _,
          Yarn.firstGroup1_spec _ _ Yarn.resolution_whole Yarn.resolution_matches _, rfl⟩
  rw [← h1, ← hp]

/-- The hypotheses of `C44_written` can be met. -/
example : ∃ w : YarnWritten, w.OK ∧ w.name = g!"foo" ∧ w.more ≠ [] := by
  refine ⟨⟨g!"foo@^1.0.0:", g!"foo@^1.0.0", g!"foo", g!"1.2.3", g!"https://registry.yarnpkg.com/foo/-/foo-1.2.3.tgz#abc",
    [g!"  dependencies:", g!"    bar \"^2\""]⟩, ⟨⟨[], g!":", [], Or.inl rfl, Or.inr (Or.inr (Or.inl rfl)), Or.inl rfl, rfl⟩,
    .range g!"foo" g!"^1.0.0" ⟨g!"foo", Or.inl rfl, by decide, by decide, by decide, ?_⟩ (by decide) ?_, ?_, ?_,
    ⟨by decide, by decide⟩, ⟨by decide, by decide, by decide, by decide⟩, ?_, ?_⟩, rfl, by decide⟩
  · intro t h; simp at h
  · intro t h; simp at h
  · intro t; exact ⟨by simp, by simp⟩
  · intro u h
    have := congrArg List.reverse h
    simp at this
  · intro l hl
    simp at hl
    rcases hl with rfl | rfl
    · exact ⟨_, rfl⟩
    · exact ⟨_, rfl⟩
  · intro l hl
    simp [YarnWritten.lines] at hl
    rcases hl with rfl | rfl | rfl | rfl | rfl | rfl <;>
      exact ⟨by decide, fun t h => absurd (congrArg List.getLast? h) (by simp), by decide⟩

/-- A yarn 2 file with metadata, the root workspace and one package. -/
example : parseYarnLock (some g!"__metadata:\n  version: 6\n\n\"foo@npm:^1.0.0\":\n  version: 1.2.3\n  resolution: \"foo@npm:1.2.3\"\n\n\"root@workspace:.\":\n  version: 0.0.0\n") =
    ([⟨g!"foo", g!"1.2.3", [], g!"npm", g!"npm"⟩], false) := by
  decide +kernel

end Osv
