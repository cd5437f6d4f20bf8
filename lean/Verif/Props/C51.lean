import Verif.Model.LockMix
import Verif.Spec.Mix
import Verif.Lemmas.Text
import Verif.Lemmas.Scanner
import Verif.Lemmas.RegexMatch
/-!
# C51: mix.lock entries
-/
namespace Osv
open Str Spec

namespace Mix

theorem fields_go (cur s : Str) (hc : ',' ∉ cur) :
    fieldsFunc.go (· == ',') cur s = commaFields (cur ++ s) := by
  induction s generalizing cur with
  | nil =>
    unfold fieldsFunc.go commaFields
    rw [List.append_nil, splitChar_of_not_mem _ _ hc]
    cases cur <;> simp
  | cons c cs ih =>
    unfold fieldsFunc.go
    by_cases h : c = ','
    · subst h
      have e : commaFields (cur ++ ',' :: cs) = (if cur.isEmpty then [] else [cur]) ++ commaFields cs := by
        unfold commaFields
        rw [splitChar_append _ _ _ hc]
        cases cur <;> simp
      rw [e, ih [] (by simp)]
      cases cur <;> simp
    · rw [if_neg (by simpa using h), ih (cur ++ [c]) (by simp [hc, Ne.symm h])]
      simp

theorem fields_eq (s : Str) : fieldsFunc (· == ',') s = commaFields s := fields_go [] s (by simp)

theorem whole : ∀ bol k x rest k', Re.Matches reMixLine bol k x rest k' → bol = true ∧ rest = [] :=
  Re.cat_whole rfl rfl

theorem matches_iff (line : Str) (hn : '\n' ∉ line) (k : Caps) :
    Re.Matches reMixLine true [] line [] k ↔ ∃ name, MixHead line name ∧ k = [(1, name)] := by
  simp only [reMixLine, Re.cat, Re.ch, Re.any, Re.matches_seq, Re.matches_bot, Re.matches_plus_cls, Re.matches_cls, Re.matches_cap, Re.matches_lit, Re.matches_eot]
  constructor
  · rintro ⟨_, _, _, rfl, ⟨_, rfl, rfl⟩, indent, _, _, rfl, ⟨hi, hs, rfl⟩, _, _, _, rfl, ⟨q, rfl, hq, rfl⟩, name, _, _,
      rfl, ⟨_, ⟨hne, hw, rfl⟩, rfl⟩, _, _, _, rfl, ⟨rfl, rfl⟩, mid, _, _, rfl, ⟨hm, hm', rfl⟩, _, _, _, rfl,
      ⟨d, rfl, hd, rfl⟩, rfl, _, rfl⟩
    simp only [beq_iff_eq] at hs hq hd
    subst hq hd
    exact ⟨name, ⟨indent, mid, hi, hs, hne, hw, hm, by simp⟩, rfl⟩
  · rintro ⟨name, ⟨indent, mid, hi, hs, hne, hw, hm, rfl⟩, rfl⟩
    refine ⟨[], _, _, rfl, ⟨trivial, rfl, rfl⟩, indent, _, _, rfl, ⟨hi, by simpa using hs, rfl⟩, ['"'], _, _, rfl,
      ⟨'"', rfl, by simp, rfl⟩, name, g!"\": {" ++ mid ++ g!",", _, by simp, ⟨_, ⟨hne, hw, rfl⟩, rfl⟩, g!"\": {", mid ++ g!",", _, by simp,
      ⟨rfl, rfl⟩, mid, g!",", _, rfl, ⟨hm, ?_, rfl⟩, [','], [], _, rfl, ⟨',', rfl, by simp, rfl⟩, rfl, trivial, rfl⟩
    intro c hc
    simp only [bne_iff_ne, ne_eq]
    rintro rfl
    exact hn (by simp [hc])

/-- The name is the text between the first two quotes. -/
theorem head_unique {line n m : Str} (h : MixHead line n) (h' : MixHead line m) : n = m := by
  obtain ⟨i, x, _, hi, _, hn, _, rfl⟩ := h
  obtain ⟨j, y, _, hj, _, hm, _, e⟩ := h'
  have q1 : '"' ∉ i := fun h => absurd (hi _ h) (by decide)
  have q2 : '"' ∉ j := fun h => absurd (hj _ h) (by decide)
  have q3 : '"' ∉ n := fun h => absurd (hn _ h) (by decide)
  have q4 : '"' ∉ m := fun h => absurd (hm _ h) (by decide)
  have c1 := cut?_char '"' i (n ++ g!"\": {" ++ x ++ g!",") q1
  rw [e, cut?_char '"' j _ q2] at c1
  have e2 : m ++ '"' :: (g!": {" ++ y ++ g!",") = n ++ '"' :: (g!": {" ++ x ++ g!",") := by
    have := (Prod.mk.inj (Option.some.inj c1)).2
    simpa using this
  have c2 := cut?_char '"' n (g!": {" ++ x ++ g!",") q3
  rw [← e2, cut?_char '"' m _ q4] at c2
  exact (Prod.mk.inj (Option.some.inj c2)).1.symm

theorem find_iff (line : Str) (hn : '\n' ∉ line) (name : Str) :
    (∃ m, reMixLine.find line = some m ∧ m.group 1 = name) ↔ MixHead line name := by
  obtain ⟨hs, hnone⟩ := Re.find_whole whole line
  constructor
  · rintro ⟨m, hf, rfl⟩
    obtain ⟨n, hh, hk⟩ := (matches_iff line hn _).1 (hs m hf)
    unfold Re.Found.group
    rw [hk]
    exact hh
  · intro h
    cases hf : reMixLine.find line with
    | none => exact absurd ((matches_iff line hn _).2 ⟨name, h, rfl⟩) (hnone hf _)
    | some m =>
      obtain ⟨n, hh, hk⟩ := (matches_iff line hn _).1 (hs m hf)
      refine ⟨m, rfl, ?_⟩
      unfold Re.Found.group
      rw [hk, head_unique h hh]
      rfl

theorem unquote_iff {s t : Str} : unquoteMix s = t ↔ Unquoted s t := by
  constructor
  · rintro rfl
    unfold unquoteMix trimPrefix trimSuffix
    by_cases h1 : hasPrefix s g!"\"" = true
    · rw [if_pos h1]
      obtain ⟨u, rfl⟩ := (hasPrefix_iff _ _).1 h1
      have e : ∀ u : Str, (g!"\"" ++ u).drop (g!"\"").length = u := by intro u; simp
      rw [e]
      by_cases h2 : hasSuffix u g!"\"" = true
      · rw [if_pos h2]
        obtain ⟨v, rfl⟩ := (hasSuffix_iff _ _).1 h2
        simpa using Unquoted.both v
      · rw [if_neg h2]
        exact .left u (fun v hv => h2 ((hasSuffix_iff _ _).2 ⟨v, hv⟩))
    · rw [if_neg h1]
      by_cases h2 : hasSuffix s g!"\"" = true
      · rw [if_pos h2]
        obtain ⟨v, rfl⟩ := (hasSuffix_iff _ _).1 h2
        have : (v ++ g!"\"").take ((v ++ g!"\"").length - (g!"\"").length) = v := by simp
        rw [this]
        exact .right v (fun w hw => h1 ((hasPrefix_iff _ _).2 ⟨w, hw⟩))
      · rw [if_neg h2]
        exact .neither s (fun w hw => h1 ((hasPrefix_iff _ _).2 ⟨w, hw⟩)) (fun v hv => h2 ((hasSuffix_iff _ _).2 ⟨v, hv⟩))
  · intro h
    unfold unquoteMix
    cases h with
    | both t => rw [show '"' :: (t ++ ['"']) = g!"\"" ++ (t ++ g!"\"") from rfl, trimPrefix_append, trimSuffix_append]
    | left t h => rw [show '"' :: t = g!"\"" ++ t from rfl, trimPrefix_append, trimSuffix_of_not h]
    | right t h => rw [trimPrefix_of_not h, trimSuffix_append]
    | neither _ h h' => rw [trimPrefix_of_not h, trimSuffix_of_not h']

theorem field_iff {f v : Str} : unquoteMix (trimSpace f) = v ↔ MixField f v := by
  rw [unquote_iff]
  exact ⟨fun h => ⟨_, trimSpace_trimmed f, h⟩, fun ⟨t, ht, h⟩ => (by rw [trimSpace_of_trimmed ht]; exact h)⟩

/-- The package of one line. -/
def entry (line : Str) : Option PackageDetails := (mixStep [] line).head?

theorem step_eq (acc : List PackageDetails) (line : Str) : mixStep acc line = acc ++ (entry line).toList := by
  unfold entry mixStep
  cases reMixLine.find line with
  | none => simp
  | some m =>
    dsimp only
    split
    · split <;> simp
    · simp

theorem entry_iff (line : Str) (hn : '\n' ∉ line) (p : PackageDetails) : entry line = some p ↔ MixEntry line p := by
  unfold entry mixStep
  rw [fields_eq]
  constructor
  · intro h
    cases hf : reMixLine.find line with
    | none => rw [hf] at h; cases h
    | some m =>
      rw [hf] at h
      dsimp only at h
      have hh := (find_iff line hn (m.group 1)).1 ⟨m, hf, rfl⟩
      split at h
      · rename_i f0 f1 f2 f3 more hfs
        refine ⟨m.group 1, f0, f1, f2, f3, more, _, _, hh, hfs, field_iff.1 rfl, field_iff.1 rfl, ?_⟩
        by_cases hg : hasSuffix f0 g!":git" = true
        · rw [if_pos hg] at h
          simp only [List.nil_append, List.head?_cons, Option.some.injEq] at h
          exact Or.inl ⟨(hasSuffix_iff _ _).1 hg, h.symm⟩
        · rw [if_neg hg] at h
          simp only [List.nil_append, List.head?_cons, Option.some.injEq] at h
          exact Or.inr ⟨fun h' => hg ((hasSuffix_iff _ _).2 h'), h.symm⟩
      · cases h
  · rintro ⟨name, f0, f1, f2, f3, more, v, c, hh, hfs, hv, hc, hcase⟩
    obtain ⟨m, hf, rfl⟩ := (find_iff line hn name).2 hh
    rw [hf, hfs]
    dsimp only
    rw [field_iff.2 hv, field_iff.2 hc]
    rcases hcase with ⟨hg, rfl⟩ | ⟨hg, rfl⟩
    · rw [if_pos ((hasSuffix_iff _ _).2 hg)]; rfl
    · rw [if_neg (fun h' => hg ((hasSuffix_iff _ _).1 h'))]; rfl

theorem parse_eq (content : Str) (h : (Scanner.scan content).2 = false) :
    parseMixLock (some content) = ((Scanner.scan content).1.filterMap entry, false) := by
  unfold parseMixLock
  dsimp only
  rw [if_neg (by simp [h]), foldl_append_filterMap entry mixStep step_eq, List.nil_append]

end Mix

/-- For every file whose lines can be scanned, the packages are the entries of its lines, in order. -/
theorem C51_entries (content : Str) (h : (Scanner.scan content).2 = false) :
    (parseMixLock (some content)).2 = false ∧
    Entries MixEntry (Scanner.scan content).1 (parseMixLock (some content)).1 := by
  rw [Mix.parse_eq content h]
  refine ⟨rfl, ?_⟩
  dsimp only
  have hn := Scanner.scan_no_newline content
  generalize (Scanner.scan content).1 = ls at hn
  induction ls with
  | nil => exact .nil
  | cons l ls ih =>
    have ih := ih (fun x hx => hn x (by simp [hx]))
    have hl := Mix.entry_iff l (hn l (by simp))
    cases he : Mix.entry l with
    | none =>
      rw [List.filterMap_cons_none he]
      exact .skip (fun p hp => (by rw [← hl, he] at hp; cases hp)) ih
    | some p => rw [List.filterMap_cons_some he]; exact .keep ((hl p).1 he) ih

/-- A line stands for at most one package. -/
theorem C51_unique (line : Str) (hn : '\n' ∉ line) (p q : PackageDetails) (hp : MixEntry line p)
    (hq : MixEntry line q) : p = q := by
  have h1 := (Mix.entry_iff line hn p).2 hp
  have h2 := (Mix.entry_iff line hn q).2 hq
  rw [h1] at h2
  exact Option.some.inj h2

/-- An unreadable file, or a line that is too long, is an error and yields no packages. -/
theorem C51_errors (content : Option Str) (h : ∀ c, content = some c → (Scanner.scan c).2 = true) :
    parseMixLock content = ([], true) := by
  unfold parseMixLock
  cases content with
  | none => rfl
  | some c => dsimp only; rw [if_pos (h c rfl)]

/-- An entry as mix writes it. -/
inductive MixWritten where
  /-- `"name": {:hex, :package, "version", "checksum", more},` -/
  | hex (name package version checksum more : Str)
  /-- `"name": {:git, "url", "commit", more},` -/
  | git (name url commit more : Str)

/-- The text of the line. -/
def MixWritten.line : MixWritten → Str
  | .hex n p v c m => g!"  \"" ++ n ++ g!"\": {:hex, :" ++ p ++ g!", \"" ++ v ++ g!"\", \"" ++ c ++ g!"\", " ++ m ++ g!"},"
  | .git n u c m => g!"  \"" ++ n ++ g!"\": {:git, \"" ++ u ++ g!"\", \"" ++ c ++ g!"\", " ++ m ++ g!"},"

/-- The package the entry stands for. A hex entry also carries its checksum as commit. -/
def MixWritten.package : MixWritten → PackageDetails
  | .hex n _ v c _ => ⟨n, v, c, g!"Hex", g!"Hex"⟩
  | .git n _ c _ => ⟨n, [], c, g!"Hex", g!"Hex"⟩

/-- Names are words, and the quoted values have no commas. -/
def MixWritten.OK : MixWritten → Prop
  | .hex n p v c m => n ≠ [] ∧ (∀ x ∈ n, isWord x = true) ∧ ',' ∉ p ∧ ',' ∉ v ∧ ',' ∉ c ∧
      '\n' ∉ (MixWritten.hex n p v c m).line
  | .git n u c m => n ≠ [] ∧ (∀ x ∈ n, isWord x = true) ∧ ',' ∉ u ∧ ',' ∉ c ∧ (∃ x t, m = x :: t ∧ x ≠ ',') ∧
      '\n' ∉ (MixWritten.git n u c m).line

namespace Mix

theorem commaFields_cons (a b : Str) (h : ',' ∉ a) (hne : a ≠ []) : commaFields (a ++ ',' :: b) = a :: commaFields b := by
  unfold commaFields
  rw [splitChar_append _ _ _ h, List.filter_cons_of_pos]
  cases a with
  | nil => exact absurd rfl hne
  | cons => rfl

theorem field_quoted (v : Str) : MixField (g!" \"" ++ v ++ g!"\"") v := by
  refine ⟨'"' :: (v ++ ['"']), ⟨[' '], [], by simp, ?_, by simp [Blank], ?_, ?_⟩, .both v⟩
  · intro c hc; simp at hc; rw [hc]; decide
  · intro c hc; simp at hc; rw [← hc]; decide
  · intro c hc
    have : ('"' :: (v ++ ['"'])).getLast? = some '"' := by
      rw [show '"' :: (v ++ ['"']) = ('"' :: v) ++ ['"'] from rfl, getLast?_append_ne _ _ (by simp)]; rfl
    rw [this] at hc; simp at hc; rw [← hc]; decide

theorem word_no_comma {n : Str} (h : ∀ x ∈ n, isWord x = true) : ',' ∉ n := fun hm => absurd (h _ hm) (by decide)

theorem written_entry (w : MixWritten) (h : w.OK) : MixEntry w.line w.package := by
  cases w with
  | hex n p v c m =>
    obtain ⟨hne, hw, hp, hv, hc, hnl⟩ := h
    have hnc := word_no_comma hw
    refine ⟨n, g!"  \"" ++ n ++ g!"\": {:hex", g!" :" ++ p, g!" \"" ++ v ++ g!"\"", g!" \"" ++ c ++ g!"\"",
      commaFields (g!" " ++ m ++ g!"},"), v, c, ?_, ?_, field_quoted v, field_quoted c, Or.inr ⟨?_, rfl⟩⟩
    · refine ⟨g!"  ", g!":hex, :" ++ p ++ g!", \"" ++ v ++ g!"\", \"" ++ c ++ g!"\", " ++ m ++ g!"}", by simp, by simp, hne, hw,
        by simp, by simp [MixWritten.line]⟩
    · have e : (MixWritten.hex n p v c m).line = (g!"  \"" ++ n ++ g!"\": {:hex") ++ ',' :: ((g!" :" ++ p) ++ ',' ::
        ((g!" \"" ++ v ++ g!"\"") ++ ',' :: ((g!" \"" ++ c ++ g!"\"") ++ ',' :: (g!" " ++ m ++ g!"},")))) := by
        simp [MixWritten.line]
      rw [e, commaFields_cons _ _ (by simp [hnc]) (by simp), commaFields_cons _ _ (by simp [hp]) (by simp),
        commaFields_cons _ _ (by simp [hv]) (by simp), commaFields_cons _ _ (by simp [hc]) (by simp)]
    · rintro ⟨t, ht⟩
      have h1 := congrArg List.getLast? ht
      rw [getLast?_append_ne _ _ (by simp), getLast?_append_ne _ _ (by simp)] at h1
      exact absurd h1 (by decide)
  | git n u c m =>
    obtain ⟨hne, hw, hu, hc, ⟨x, t, hm, hx⟩, hnl⟩ := h
    have hnc := word_no_comma hw
    have h4 : ∃ f more v, commaFields (g!" " ++ m ++ g!"},") = f :: more ∧ MixField f v := by
      obtain ⟨f, more, hf⟩ : ∃ f more, commaFields (g!" " ++ m ++ g!"},") = f :: more := by
        unfold commaFields
        have e : g!" " ++ m ++ g!"}," = ' ' :: (m ++ g!"},") := by simp
        rw [e, splitChar, if_neg (by decide)]
        split
        · exact ⟨_, _, rfl⟩
        · exact ⟨_, _, List.filter_cons_of_pos (by simp)⟩
      exact ⟨f, more, _, hf, field_iff.1 rfl⟩
    obtain ⟨f, more, w, hf, hw'⟩ := h4
    refine ⟨n, g!"  \"" ++ n ++ g!"\": {:git", g!" \"" ++ u ++ g!"\"", g!" \"" ++ c ++ g!"\"", f, more, c, w, ?_, ?_,
      field_quoted c, hw', Or.inl ⟨⟨g!"  \"" ++ n ++ g!"\": {", by simp⟩, rfl⟩⟩
    · refine ⟨g!"  ", g!":git, \"" ++ u ++ g!"\", \"" ++ c ++ g!"\", " ++ m ++ g!"}", by simp, by simp, hne, hw, by simp,
        by simp [MixWritten.line]⟩
    · have e : (MixWritten.git n u c m).line = (g!"  \"" ++ n ++ g!"\": {:git") ++ ',' :: ((g!" \"" ++ u ++ g!"\"") ++ ',' ::
        ((g!" \"" ++ c ++ g!"\"") ++ ',' :: (g!" " ++ m ++ g!"},"))) := by
        simp [MixWritten.line]
      rw [e, commaFields_cons _ _ (by simp [hnc]) (by simp), commaFields_cons _ _ (by simp [hu]) (by simp),
        commaFields_cons _ _ (by simp [hc]) (by simp), hf]

end Mix

/-- Every hex or git entry in the format mix writes yields one package: the name with the version (hex) or the commit
(git), in order; the lines before and after (`%{` and `}`) yield nothing. -/
theorem C51_written (ws : List MixWritten) (hw : ∀ w ∈ ws, w.OK) (hl : ∀ w ∈ ws, Scanner.LineOK w.line) :
    parseMixLock (some (Scanner.unlines (g!"%{" :: ws.map (·.line) ++ [g!"}"]))) = (ws.map (·.package), false) := by
  have lit : ∀ l : Str, (l = g!"%{" ∨ l = g!"}") → Scanner.LineOK l := by
    rintro l (rfl | rfl)
    · exact ⟨by decide, fun t h => absurd (congrArg List.getLast? h) (by simp), by decide⟩
    · exact ⟨by decide, fun t h => absurd (congrArg List.getLast? h) (by simp), by decide⟩
  have hscan := Scanner.scan_unlines (g!"%{" :: ws.map (·.line) ++ [g!"}"]) (by
    intro l hlm
    simp only [List.cons_append, List.mem_cons, List.mem_append, List.mem_map, List.not_mem_nil, or_false] at hlm
    rcases hlm with h | ⟨w, h, rfl⟩ | h
    · exact lit l (Or.inl h)
    · exact hl w h
    · exact lit l (Or.inr h))
  rw [Mix.parse_eq _ (by rw [hscan]), hscan]
  congr 1
  have none_of : ∀ l : Str, (∀ n, ¬ MixHead l n) → '\n' ∉ l → Mix.entry l = none := by
    intro l h hn
    cases he : Mix.entry l with
    | none => rfl
    | some p =>
      obtain ⟨n, _, _, _, _, _, _, _, hh, _⟩ := (Mix.entry_iff l hn p).1 he
      exact absurd hh (h n)
  have nohead : ∀ l : Str, (l = g!"%{" ∨ l = g!"}") → ∀ n, ¬ MixHead l n := by
    rintro l h n ⟨i, m, hi, hs, _, _, _, e⟩
    cases i with
    | nil => exact hi rfl
    | cons a i =>
      have ha := hs a (by simp)
      subst ha
      rcases h with h | h <;> · rw [h] at e; simp at e
  rw [List.cons_append, List.filterMap_cons_none (none_of _ (nohead _ (Or.inl rfl)) (by decide)), List.filterMap_append,
    List.filterMap_cons_none (none_of _ (nohead _ (Or.inr rfl)) (by decide)), List.filterMap_nil, List.append_nil]
  clear hscan lit none_of nohead
  induction ws with
  | nil => rfl
  | cons w ws ih =>
    have he := (Mix.entry_iff w.line (hl w (by simp)).newline _).2 (Mix.written_entry w (hw w (by simp)))
    rw [List.map_cons, List.filterMap_cons_some he, List.map_cons,
      ih (fun x hx => hw x (by simp [hx])) (fun x hx => hl x (by simp [hx]))]

/-- The hypotheses of `C51_written` can be met. -/
example : (MixWritten.hex g!"plug" g!"plug" g!"1.11.1" g!"f2992bac" g!"[:mix], [], \"hexpm\"").OK ∧
    (MixWritten.git g!"foo" g!"https://example.com/foo.git" g!"abc123" g!"[branch: \"main\"]").OK :=
  ⟨⟨by decide, by decide, by decide, by decide, by decide, by decide⟩,
   ⟨by decide, by decide, by decide, by decide, ⟨'[', _, rfl, by decide⟩, by decide⟩⟩

/-- A file with a hex and a git entry. -/
example : parseMixLock (some g!"%{\n  \"plug\": {:hex, :plug, \"1.11.1\", \"f2992bac\", [:mix], []},\n  \"foo\": {:git, \"https://e.com/foo.git\", \"abc\", []},\n}\n") =
    ([⟨g!"plug", g!"1.11.1", g!"f2992bac", g!"Hex", g!"Hex"⟩, ⟨g!"foo", [], g!"abc", g!"Hex", g!"Hex"⟩], false) := by
  decide +kernel

end Osv
