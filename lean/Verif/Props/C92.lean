import Verif.Spec.Lines
import Verif.Lemmas.Scanner
import Verif.Props.C41
import Verif.Props.C44
import Verif.Props.C51
import Verif.Props.C52
/-! # C92: lockfiles that are read by lines -/
namespace Osv
open Str Spec

namespace Scanner

theorem rawLines_of_linesOf {content : Str} {raw : List Str} (h : LinesOf content raw) : rawLines content = raw := by
  unfold rawLines
  dsimp only
  induction h with
  | nil => rfl
  | last h1 h2 =>
    rw [splitChar_of_not_mem _ _ h2]
    rw [if_neg (by simpa using h1)]
  | @line l rest ls h1 h2 ih =>
    rw [splitChar_append _ _ _ h1]
    have hne := splitChar_ne_nil '\n' rest
    obtain ⟨x, xs, e⟩ := List.exists_cons_of_ne_nil hne
    rw [e] at ih ⊢
    rw [List.getLast?_cons_cons]
    by_cases hl : (x :: xs).getLast? = some []
    · rw [if_pos hl] at ih ⊢
      rw [List.dropLast_cons_cons, ih]
    · rw [if_neg hl] at ih ⊢
      rw [ih]

theorem linesOf_exists (n : Nat) (content : Str) (h : content.length ≤ n) : ∃ raw, LinesOf content raw := by
  induction n generalizing content with
  | zero =>
    have : content = [] := List.length_eq_zero_iff.1 (by omega)
    subst this
    exact ⟨_, .nil⟩
  | succ n ih =>
    by_cases hm : '\n' ∈ content
    · obtain ⟨a, b, e, ha⟩ := List.eq_append_cons_of_mem hm
      subst e
      obtain ⟨raw, hr⟩ := ih b (by simp at h; omega)
      exact ⟨_, .line ha hr⟩
    · by_cases h0 : content = []
      · subst h0; exact ⟨_, .nil⟩
      · exact ⟨_, .last h0 hm⟩

theorem linesOf_rawLines (content : Str) : LinesOf content (rawLines content) := by
  obtain ⟨raw, h⟩ := linesOf_exists _ content (Nat.le_refl _)
  rw [rawLines_of_linesOf h]
  exact h

theorem charBytes_eq (c : Char) : c.utf8Size = charBytes c := by
  unfold Char.utf8Size charBytes
  have e : c.toNat = c.val.toNat := rfl
  have e1 : ∀ n : UInt32, c.val ≤ n ↔ c.toNat ≤ n.toNat := fun n => UInt32.le_iff_toNat_le
  simp only [e1]
  have n1 : (UInt32.ofNatLT 0x7F (by decide)).toNat = 0x7F := rfl
  have n2 : (UInt32.ofNatLT 0x7FF (by decide)).toNat = 0x7FF := rfl
  have n3 : (UInt32.ofNatLT 0xFFFF (by decide)).toNat = 0xFFFF := rfl
  rw [n1, n2, n3]
  have l1 : c.toNat ≤ 0x7F ↔ c.toNat < 0x80 := by omega
  have l2 : c.toNat ≤ 0x7FF ↔ c.toNat < 0x800 := by omega
  have l3 : c.toNat ≤ 0xFFFF ↔ c.toNat < 0x10000 := by omega
  simp only [l1, l2, l3]

theorem short_iff (l : Str) : ShortLine l ↔ byteLen l < maxToken := by
  unfold ShortLine byteLen maxToken
  have : l.map charBytes = l.map Char.utf8Size := List.map_congr_left fun c _ => (charBytes_eq c).symm
  rw [this]

theorem dropCR_iff (l t : Str) : dropCR l = t ↔ WithoutCR l t := by
  by_cases h : ∃ u, l = u ++ ['\r']
  · obtain ⟨u, rfl⟩ := h
    have e : dropCR (u ++ ['\r']) = u := by
      unfold dropCR trimSuffix
      rw [if_pos ((hasSuffix_iff _ _).2 ⟨u, rfl⟩)]
      simp
    rw [e]
    constructor
    · rintro rfl; exact Or.inl rfl
    · rintro (h | ⟨h, _⟩)
      · exact List.append_cancel_right h
      · exact absurd rfl (h u)
  · have h' : ∀ u, l ≠ u ++ ['\r'] := fun u e => h ⟨u, e⟩
    rw [dropCR_eq l h']
    constructor
    · rintro rfl; exact Or.inr ⟨h', rfl⟩
    · rintro (e | ⟨_, e⟩)
      · exact absurd e (h' t)
      · exact e.symm

theorem scanRaw_iff (raw ls : List Str) : scanRaw raw = (ls, false) ↔ (∀ l ∈ raw, ShortLine l) ∧ Each WithoutCR raw ls := by
  induction raw generalizing ls with
  | nil =>
    constructor
    · intro h; cases h; exact ⟨by simp, .nil⟩
    · rintro ⟨_, h⟩; cases h; rfl
  | cons l raw ih =>
    unfold scanRaw
    by_cases hl : byteLen l ≥ maxToken
    · rw [if_pos hl]
      constructor
      · intro h; cases h
      · rintro ⟨h, _⟩
        have := (short_iff l).1 (h l (by simp))
        omega
    · rw [if_neg hl]
      dsimp only
      constructor
      · intro h
        injection h with h1 h2
        obtain ⟨i1, i2⟩ := (ih (scanRaw raw).1).1 (by rw [← h2])
        subst h1
        refine ⟨?_, .cons ((dropCR_iff _ _).1 rfl) i2⟩
        intro x hx
        rcases List.mem_cons.1 hx with rfl | hx
        · exact (short_iff _).2 (by omega)
        · exact i1 x hx
      · rintro ⟨h, he⟩
        cases he with
        | cons h1 h2 =>
          rw [(ih _).2 ⟨fun x hx => h x (by simp [hx]), h2⟩, (dropCR_iff _ _).2 h1]

end Scanner

/-- The lines of a file, as they are read. -/
theorem C92_lines (content : Str) (ls : List Str) : Scanner.scan content = (ls, false) ↔ TextLines content ls := by
  unfold Scanner.scan TextLines
  rw [Scanner.scanRaw_iff]
  constructor
  · intro h; exact ⟨_, Scanner.linesOf_rawLines content, h⟩
  · rintro ⟨raw, h1, h2⟩
    rw [Scanner.rawLines_of_linesOf h1]
    exact h2

/-- A text has its lines in one way. -/
theorem C92_unique (content : Str) (ls ls' : List Str) (h : TextLines content ls) (h' : TextLines content ls') : ls = ls' := by
  have h1 := (C92_lines content ls).2 h
  rw [(C92_lines content ls').2 h'] at h1
  injection h1 with h1 _
  exact h1.symm

/-- Reading fails exactly if a line is too long. -/
theorem C92_too_long (content : Str) :
    (Scanner.scan content).2 = true ↔ ∃ raw l, LinesOf content raw ∧ l ∈ raw ∧ ¬ ShortLine l := by
  rw [← Bool.not_eq_false, Scanner.scan_ok_iff]
  simp only [← Scanner.short_iff]
  constructor
  · intro h
    simp only [Classical.not_forall] at h
    obtain ⟨l, hl, hs⟩ := h
    exact ⟨_, l, Scanner.linesOf_rawLines content, hl, hs⟩
  · rintro ⟨raw, l, h1, h2, h3⟩ h
    rw [← Scanner.rawLines_of_linesOf h1] at h2
    exact h3 (h l h2)

theorem scan_split (content : Str) (h : (Scanner.scan content).2 = false) : TextLines content (Scanner.scan content).1 :=
  (C92_lines _ _).1 (by rw [← h])

/-- yarn.lock, by lines. -/
theorem C92_yarn (content : Str) (ps : List PackageDetails) (h : parseYarnLock (some content) = (ps, false)) :
    ∃ ls gs, TextLines content ls ∧ Blocks ls gs ∧ Entries YarnEntry gs ps := by
  cases hs : (Scanner.scan content).2 with
  | true =>
    rw [C44_errors (some content) (by rintro c ⟨⟩; exact hs)] at h
    cases h
  | false =>
    obtain ⟨_, gs, h1, h2⟩ := C44_packages content hs
    rw [h] at h2
    exact ⟨_, gs, scan_split content hs, h1, h2⟩

/-- mix.lock, by lines. -/
theorem C92_mix (content : Str) (ps : List PackageDetails) (h : parseMixLock (some content) = (ps, false)) :
    ∃ ls, TextLines content ls ∧ Entries MixEntry ls ps := by
  cases hs : (Scanner.scan content).2 with
  | true =>
    rw [C51_errors (some content) (by rintro c ⟨⟩; exact hs)] at h
    cases h
  | false =>
    have h2 := (C51_entries content hs).2
    rw [h] at h2
    exact ⟨_, scan_split content hs, h2⟩

/-- gradle.lockfile, by lines. -/
theorem C92_gradle (content : Str) (ps : List PackageDetails) (h : parseGradleLock (some content) = (ps, false)) :
    ∃ ls, TextLines content ls ∧ Entries GradleEntry ls ps := by
  cases hs : (Scanner.scan content).2 with
  | true =>
    unfold parseGradleLock at h
    dsimp only at h
    rw [if_pos hs] at h
    cases h
  | false =>
    have h2 := (C52_entries content hs).2
    rw [h] at h2
    exact ⟨_, scan_split content hs, h2⟩

/-- For all three, a file with a line that is too long is an error and gives no packages. -/
theorem C92_errors (content : Str) (raw : List Str) (l : Str) (h : LinesOf content raw) (hl : l ∈ raw) (hs : ¬ ShortLine l) :
    parseYarnLock (some content) = ([], true) ∧ parseMixLock (some content) = ([], true) ∧
    parseGradleLock (some content) = ([], true) := by
  have ht := (C92_too_long content).2 ⟨raw, l, h, hl, hs⟩
  unfold parseYarnLock parseMixLock parseGradleLock
  dsimp only
  rw [if_pos ht, if_pos ht, if_pos ht]
  exact ⟨rfl, rfl, rfl⟩

/-- For all three, a file has its lines, all of them short, exactly if reading it is no error. -/
theorem C92_reads (content : Str) :
    ((parseYarnLock (some content)).2 = false ↔ ∃ ls, TextLines content ls) ∧
    ((parseMixLock (some content)).2 = false ↔ ∃ ls, TextLines content ls) ∧
    ((parseGradleLock (some content)).2 = false ↔ ∃ ls, TextLines content ls) := by
  have key : ∀ r : List PackageDetails × Bool,
      ((Scanner.scan content).2 = false → r.2 = false) → ((Scanner.scan content).2 = true → r = ([], true)) →
      (r.2 = false ↔ ∃ ls, TextLines content ls) := by
    intro r h1 h2
    constructor
    · intro h
      cases hs : (Scanner.scan content).2 with
      | true => rw [h2 hs] at h; cases h
      | false => exact ⟨_, scan_split content hs⟩
    · rintro ⟨ls, h⟩
      exact h1 (by rw [(C92_lines _ _).2 h])
  have he : (Scanner.scan content).2 = true → parseYarnLock (some content) = ([], true) ∧
      parseMixLock (some content) = ([], true) ∧ parseGradleLock (some content) = ([], true) := by
    intro h
    obtain ⟨raw, l, h1, h2, h3⟩ := (C92_too_long content).1 h
    exact C92_errors content raw l h1 h2 h3
  exact ⟨key _ (fun h => (C44_packages content h).1) fun h => (he h).1,
    key _ (fun h => (C51_entries content h).1) fun h => (he h).2.1,
    key _ (fun h => (C52_entries content h).1) fun h => (he h).2.2⟩

/-- A requirements file that can be read, by lines. -/
theorem C92_requirements (fs : Str → Option Str) (p : Str) :
    (ReadableText fs p ↔ ∃ content ls, fs p = some content ∧ TextLines content ls) ∧
    (∀ content ls, fs p = some content → TextLines content ls → ∀ t, FileLine fs p t ↔
      ∃ js j, Joined ls js ∧ j ∈ js ∧ Uncommented j t) := by
  refine ⟨⟨?_, ?_⟩, ?_⟩
  · rintro ⟨content, h1, h2⟩
    exact ⟨content, _, h1, scan_split content h2⟩
  · rintro ⟨content, ls, h1, h2⟩
    exact ⟨content, h1, by rw [(C92_lines _ _).2 h2]⟩
  · intro content ls h1 h2 t
    have e := (C92_lines _ _).2 h2
    constructor
    · rintro ⟨c, js, j, h3, h4, h5, h6⟩
      rw [h1] at h3
      cases h3
      rw [e] at h4
      exact ⟨js, j, h4, h5, h6⟩
    · rintro ⟨js, j, h4, h5, h6⟩
      exact ⟨content, js, j, h1, by rw [e]; exact h4, h5, h6⟩

/-- White space around texts. -/
theorem C92_space (c : Char) : isSpace c = true ↔ White c := by
  have hc : ∀ d : Char, c = d ↔ c.toNat = d.toNat := fun d => ⟨fun h => by rw [h], fun h => by
    rw [← Char.ofNat_toNat c, h, Char.ofNat_toNat]⟩
  unfold isSpace White
  simp only [List.mem_cons, List.not_mem_nil, or_false, hc, Char.le_def, UInt32.le_iff_toNat_le, Bool.or_eq_true, Bool.and_eq_true,
    decide_eq_true_eq, beq_iff_eq]
  have e : c.val.toNat = c.toNat := rfl
  simp only [e, Char.reduceToNat]
  have l1 : ('\u2000' : Char).val.toNat = 0x2000 := rfl
  have l2 : ('\u200A' : Char).val.toNat = 0x200A := rfl
  rw [l1, l2]
  omega

/-- A line of 64 KiB is too long, one byte less is not. -/
example : ¬ ShortLine (List.replicate 65536 'a') ∧ ShortLine (List.replicate 65535 'a') := by
  unfold ShortLine
  simp only [List.map_replicate, List.sum_replicate_nat]
  decide

/-- A gradle.lockfile with both kinds of line ends and without one at its end. -/
example : parseGradleLock (some g!"# x\r\na:b:1=c\r\n\nd:e:2=f") =
    ([⟨g!"a:b", g!"1", [], g!"Maven", g!"Maven"⟩, ⟨g!"d:e", g!"2", [], g!"Maven", g!"Maven"⟩], false) := by decide +kernel

/-- A file with both kinds of line ends. -/
example : TextLines g!"a\r\n\nb" [g!"a", [], g!"b"] := (C92_lines _ _).1 (by decide)

end Osv
