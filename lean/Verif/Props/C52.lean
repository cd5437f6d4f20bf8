import Verif.Model.LockGradle
import Verif.Spec.Gradle
import Verif.Lemmas.Text
import Verif.Lemmas.Scanner
/-!
# C52: gradle lockfile entries
-/
namespace Osv
open Str Spec

namespace Gradle

/-- The package of one line. -/
def entry (line : Str) : Option PackageDetails :=
  if isNotGradleLine (trimSpace line) then none else parseGradleLine (trimSpace line)

theorem step_eq (acc : List PackageDetails) (line : Str) : gradleStep acc line = acc ++ (entry line).toList := by
  unfold gradleStep entry
  dsimp only
  split
  · simp
  · cases parseGradleLine (trimSpace line) <;> simp

theorem split3_iff {s a b c : Str} : splitCharN ':' 3 s = [a, b, c] ↔
    s = a ++ ':' :: (b ++ ':' :: c) ∧ ':' ∉ a ∧ ':' ∉ b := by
  constructor
  · intro h
    unfold splitCharN at h
    cases h1 : cut? [':'] s with
    | none => rw [h1] at h; simp at h
    | some r =>
      obtain ⟨a', s'⟩ := r
      rw [h1] at h
      dsimp only at h
      unfold splitCharN at h
      cases h2 : cut? [':'] s' with
      | none => rw [h2] at h; simp at h
      | some r' =>
        obtain ⟨b', c'⟩ := r'
        rw [h2] at h
        dsimp only at h
        unfold splitCharN at h
        simp only [List.cons.injEq, and_true] at h
        obtain ⟨rfl, rfl, rfl⟩ := h
        have e1 := cut?_some h1
        have e2 := cut?_some h2
        have b1 : Before ':' s a' := cut_char_fst_iff.1 (by unfold cut; rw [h1])
        have b2 : Before ':' s' b' := cut_char_fst_iff.1 (by unfold cut; rw [h2])
        exact ⟨by rw [e1, e2]; simp, b1.1, b2.1⟩
  · rintro ⟨rfl, ha, hb⟩
    unfold splitCharN
    rw [cut?_char _ _ _ ha]
    dsimp only
    unfold splitCharN
    rw [cut?_char _ _ _ hb]
    rfl

theorem parseLine_iff {s : Str} {p : PackageDetails} : parseGradleLine s = some p ↔
    ∃ group artifact rest version, s = group ++ ':' :: (artifact ++ ':' :: rest) ∧ ':' ∉ group ∧ ':' ∉ artifact ∧
      Before '=' rest version ∧ p = ⟨group ++ ':' :: artifact, version, [], g!"Maven", g!"Maven"⟩ := by
  unfold parseGradleLine
  constructor
  · intro h
    split at h
    · rename_i g a r hs
      cases h
      obtain ⟨e, h1, h2⟩ := split3_iff.1 hs
      exact ⟨g, a, r, _, e, h1, h2, cut_char_fst_iff.1 rfl, by simp [mavenEcosystem]⟩
    · cases h
  · rintro ⟨g, a, r, v, e, h1, h2, hb, rfl⟩
    rw [split3_iff.2 ⟨e, h1, h2⟩]
    dsimp only
    rw [cut_char_fst_iff.2 hb]
    simp [mavenEcosystem]

theorem notLine_iff {s : Str} : isNotGradleLine s = false ↔ (∀ t, s ≠ '#' :: t) ∧ (∀ t, s ≠ g!"empty=" ++ t) := by
  unfold isNotGradleLine
  rw [Bool.or_eq_false_iff, ← Bool.not_eq_true, ← Bool.not_eq_true, hasPrefix_iff, hasPrefix_iff]
  simp

theorem entry_iff (line : Str) (p : PackageDetails) : entry line = some p ↔ GradleEntry line p := by
  unfold entry
  constructor
  · intro h
    split at h
    · cases h
    · rename_i hn
      obtain ⟨n1, n2⟩ := notLine_iff.1 (by simpa using hn)
      obtain ⟨g, a, r, v, h'⟩ := parseLine_iff.1 h
      exact ⟨_, g, a, r, v, trimSpace_trimmed line, n1, n2, h'⟩
  · rintro ⟨body, g, a, r, v, ht, n1, n2, h'⟩
    rw [trimSpace_of_trimmed ht, if_neg (by rw [notLine_iff.2 ⟨n1, n2⟩]; simp)]
    exact parseLine_iff.2 ⟨g, a, r, v, h'⟩

end Gradle

/-- For every file whose lines can be scanned, the packages are the entries of its lines, in order: comments, the
`empty=` line and malformed lines are skipped and do not affect the others. -/
theorem C52_entries (content : Str) (h : (Scanner.scan content).2 = false) :
    (parseGradleLock (some content)).2 = false ∧
    Entries GradleEntry (Scanner.scan content).1 (parseGradleLock (some content)).1 := by
  unfold parseGradleLock
  dsimp only
  rw [if_neg (by simp [h])]
  refine ⟨rfl, ?_⟩
  dsimp only
  rw [foldl_append_filterMap Gradle.entry gradleStep Gradle.step_eq, List.nil_append]
  exact entries_mono Gradle.entry_iff (entries_filterMap _ _)

/-- A line stands for at most one package, so `C52_entries` determines the result. -/
theorem C52_unique (line : Str) (p q : PackageDetails) (hp : GradleEntry line p) (hq : GradleEntry line q) : p = q := by
  have h1 := (Gradle.entry_iff line p).2 hp
  have h2 := (Gradle.entry_iff line q).2 hq
  rw [h1] at h2
  exact Option.some.inj h2

/-- An unreadable file, or a line that is too long, is an error: no partial list is returned. -/
theorem C52_errors (content : Option Str) :
    (parseGradleLock content).2 = true ↔
      content = none ∨ ∃ c, content = some c ∧ ∃ l ∈ Scanner.rawLines c, Scanner.byteLen l ≥ Scanner.maxToken := by
  cases content with
  | none => simp [parseGradleLock]
  | some c =>
    unfold parseGradleLock
    dsimp only
    cases hs : (Scanner.scan c).2 with
    | true =>
      have : ¬ ∀ l ∈ Scanner.rawLines c, Scanner.byteLen l < Scanner.maxToken := by
        rw [← Scanner.scan_ok_iff, hs]; simp
      simp only [if_true, true_iff]
      refine Or.inr ⟨c, rfl, ?_⟩
      simp only [Classical.not_forall] at this
      obtain ⟨l, hl, h⟩ := this
      exact ⟨l, hl, by omega⟩
    | false =>
      simp only [Bool.false_eq_true, if_false, false_iff]
      rintro (h | ⟨c', h, l, hl, hb⟩)
      · cases h
      · cases h
        have := (Scanner.scan_ok_iff c).1 hs l hl
        omega

/-- On an error there are no packages. -/
theorem C52_error_empty (content : Option Str) (h : (parseGradleLock content).2 = true) :
    (parseGradleLock content).1 = [] := by
  unfold parseGradleLock at h ⊢
  cases content with
  | none => rfl
  | some c =>
    dsimp only at h ⊢
    split
    · rfl
    · rename_i hn; rw [if_neg hn] at h; cases h

/-- A line as Gradle writes it. -/
structure GradleWritten where
  group : Str
  artifact : Str
  version : Str
  configurations : Str

/-- The text of the line. -/
def GradleWritten.line (w : GradleWritten) : Str :=
  w.group ++ ':' :: (w.artifact ++ ':' :: (w.version ++ '=' :: w.configurations))

/-- No reserved characters or spaces, and some group and configuration. -/
structure GradleWritten.OK (w : GradleWritten) : Prop where
  group : w.group ≠ [] ∧ ':' ∉ w.group ∧ '=' ∉ w.group ∧ (∀ t, w.group ≠ '#' :: t)
  artifact : ':' ∉ w.artifact
  version : '=' ∉ w.version
  head : ∀ c ∈ w.group.head?, isSpace c = false
  configurations : w.configurations ≠ []
  last : ∀ c ∈ w.configurations.getLast?, isSpace c = false
  line : Scanner.LineOK w.line

/-- Reading back what Gradle writes, after any comment lines, gives exactly the written packages. -/
theorem C52_written (comments : List Str) (ws : List GradleWritten)
    (hc : ∀ l ∈ comments, ∃ t, l = '#' :: t ∧ Scanner.LineOK l) (hw : ∀ w ∈ ws, w.OK) (last : Str)
    (hl : Scanner.LineOK (g!"empty=" ++ last)) :
    parseGradleLock (some (Scanner.unlines (comments ++ ws.map (·.line) ++ [g!"empty=" ++ last]))) =
      (ws.map fun w => ⟨w.group ++ ':' :: w.artifact, w.version, [], g!"Maven", g!"Maven"⟩, false) := by
  have hscan := Scanner.scan_unlines (comments ++ ws.map (·.line) ++ [g!"empty=" ++ last]) (by
    intro l hlm
    simp only [List.mem_append, List.mem_map, List.mem_singleton] at hlm
    rcases hlm with (h | ⟨w, h, rfl⟩) | rfl
    · obtain ⟨t, _, h'⟩ := hc l h; exact h'
    · exact (hw w h).line
    · exact hl)
  unfold parseGradleLock
  dsimp only
  rw [hscan]
  dsimp only
  rw [if_neg (by simp), foldl_append_filterMap Gradle.entry gradleStep Gradle.step_eq, List.nil_append,
    List.filterMap_append, List.filterMap_append]
  congr 1
  have none_of : ∀ (s : Str), (∃ t, s = '#' :: t) ∨ (∃ t, s = g!"empty=" ++ t) → Gradle.entry s = none := by
    intro s hs
    cases he : Gradle.entry s with
    | none => rfl
    | some p =>
      obtain ⟨body, _, _, _, _, ht, n1, n2, _⟩ := (Gradle.entry_iff s p).1 he
      obtain ⟨a, b, e, ha, hb, hh, hlast⟩ := ht
      exfalso
      have hkey : ∀ (d : Char) (t : Str), s = d :: t → isSpace d = false → ∃ t', body = d :: t' ∧ t = t' ++ b := by
        intro d t hd hsp
        cases a with
        | cons x a =>
          rw [hd] at e
          simp at e
          have := ha x (by simp)
          rw [← e.1, hsp] at this
          cases this
        | nil =>
          cases body with
          | nil =>
            rw [hd] at e
            simp at e
            have := hb d (by rw [← e]; simp)
            rw [hsp] at this
            cases this
          | cons y body =>
            rw [hd] at e
            simp at e
            exact ⟨body, by rw [e.1], e.2⟩
      rcases hs with ⟨t, rfl⟩ | ⟨t, rfl⟩
      · obtain ⟨t', h1, _⟩ := hkey '#' t rfl (by decide)
        exact n1 t' h1
      · obtain ⟨t', h1, h2⟩ := hkey 'e' (g!"mpty=" ++ t) rfl (by decide)
        -- the body is long enough to contain the `=`
        have hb' : ∀ (u v : Str), u ++ v = g!"mpty=" ++ t → (∀ c ∈ v, isSpace c = true) → ∃ w, u = g!"mpty=" ++ w := by
          intro u v huv hv
          match u, huv with
          | [], huv => have := hv 'm' (by rw [List.nil_append] at huv; rw [huv]; simp); exact absurd this (by decide)
          | [c1], huv =>
            simp at huv; have := hv 'p' (by rw [huv.2]; simp); exact absurd this (by decide)
          | [c1, c2], huv =>
            simp at huv; have := hv 't' (by rw [huv.2.2]; simp); exact absurd this (by decide)
          | [c1, c2, c3], huv =>
            simp at huv; have := hv 'y' (by rw [huv.2.2.2]; simp); exact absurd this (by decide)
          | [c1, c2, c3, c4], huv =>
            simp at huv; have := hv '=' (by rw [huv.2.2.2.2]; simp); exact absurd this (by decide)
          | c1 :: c2 :: c3 :: c4 :: c5 :: w, huv =>
            simp at huv
            exact ⟨w, by simp [huv.1, huv.2.1, huv.2.2.1, huv.2.2.2.1, huv.2.2.2.2.1]⟩
        obtain ⟨w, hw'⟩ := hb' t' b h2.symm hb
        exact n2 w (by rw [h1, hw']; rfl)
  rw [List.filterMap_eq_nil_iff.2 (fun l hl' => none_of l (Or.inl (by obtain ⟨t, ht, _⟩ := hc l hl'; exact ⟨t, ht⟩))),
    List.filterMap_cons_none (none_of _ (Or.inr ⟨last, rfl⟩)), List.filterMap_nil,
    List.nil_append, List.append_nil, List.filterMap_map]
  clear hscan
  induction ws with
  | nil => rfl
  | cons w ws ih =>
    have hk := hw w (by simp)
    have : Gradle.entry w.line = some ⟨w.group ++ ':' :: w.artifact, w.version, [], g!"Maven", g!"Maven"⟩ := by
      rw [Gradle.entry_iff]
      refine ⟨w.line, w.group, w.artifact, w.version ++ '=' :: w.configurations, w.version, ?_, ?_, ?_, rfl,
        hk.group.2.1, hk.artifact, ⟨hk.version, Or.inr ⟨_, rfl⟩⟩, rfl⟩
      · refine ⟨[], [], by simp, by simp [Blank], by simp [Blank], ?_, ?_⟩
        · have h1 := hk.head
          have h2 := hk.group.1
          unfold GradleWritten.line
          cases hg : w.group with
          | nil => exact absurd hg h2
          | cons c g => rw [hg] at h1; simpa using h1
        · have h1 := hk.last
          unfold GradleWritten.line
          have e : w.group ++ ':' :: (w.artifact ++ ':' :: (w.version ++ '=' :: w.configurations)) =
            (w.group ++ ':' :: (w.artifact ++ ':' :: (w.version ++ ['=']))) ++ w.configurations := by simp
          rw [e, getLast?_append_ne _ _ hk.configurations]
          exact h1
      · intro t ht
        have h1 := hk.group.2.2.2
        have h2 := hk.group.1
        unfold GradleWritten.line at ht
        cases hg : w.group with
        | nil => exact absurd hg h2
        | cons c g =>
          rw [hg] at ht
          simp at ht
          exact h1 g (by rw [hg, ht.1])
      · intro t ht
        have h1 := hk.group.2.1
        have h3 := hk.group.2.2.1
        unfold GradleWritten.line at ht
        -- the first `:` comes before any `=`
        have : ∀ (u v x y : Str), ':' ∉ u → '=' ∉ u → ':' ∉ x → u ++ ':' :: v = x ++ '=' :: y → False := by
          intro u v x y hu hu' hx huv
          have a1 := cut?_char ':' u v hu
          have hb : Before ':' (u ++ ':' :: v) u := ⟨hu, Or.inr ⟨v, rfl⟩⟩
          rcases List.append_eq_append_iff.1 huv with ⟨a', h1, h2⟩ | ⟨a', h1, h2⟩
          · cases a' with
            | nil => simp at h2
            | cons c a' =>
              simp at h2
              exact hx (by rw [h1, ← h2.1]; simp)
          · cases a' with
            | nil => simp at h2
            | cons c a' =>
              simp at h2
              exact hu' (by rw [h1, ← h2.1]; simp)
        refine this w.group _ g!"empty" t h1 h3 (by decide) (ht.trans ?_)
        simp
    rw [List.filterMap_cons_some (by simpa using this), List.map_cons, ih (fun x hx => hw x (by simp [hx]))]

/-- The hypotheses of `C52_written` can be met. -/
example : GradleWritten.OK ⟨g!"org.apache", g!"commons", g!"1.2", g!"compileClasspath"⟩ :=
  ⟨⟨by decide, by decide, by decide, by intro t h; simp at h⟩, by decide, by decide, by simp; decide, by decide,
   by simp; decide, ⟨by decide, by
    intro t h
    have := congrArg List.getLast? h
    simp [GradleWritten.line] at this, by decide⟩⟩

/-- A file with a comment, an entry, a malformed line and the final line. -/
example : parseGradleLock (some g!"# comment\norg.a:b:1.0=x,y\nbroken\n  c:d:2:3  \nempty=\n") =
    ([⟨g!"org.a:b", g!"1.0", [], g!"Maven", g!"Maven"⟩, ⟨g!"c:d", g!"2:3", [], g!"Maven", g!"Maven"⟩], false) := by
  decide

end Osv
