import Verif.Lemmas.Gemfile
/-!
# C50: Gemfile.lock specs
-/
namespace Osv
open Str Spec

namespace Gem

/-- Line breaks only. -/
inductive Breaks : Str → Prop
  | nil : Breaks []
  | lf {s} : Breaks s → Breaks ('\n' :: s)
  | crlf {s} : Breaks s → Breaks ('\r' :: '\n' :: s)

theorem breaks_append {s t : Str} (h : Breaks s) (h' : Breaks t) : Breaks (s ++ t) := by
  induction h with
  | nil => exact h'
  | lf _ ih => exact .lf ih
  | crlf _ ih => exact .crlf ih

/-- One line break. -/
def reBreak : Re := .seq (.opt (.ch '\r')) (.ch '\n')

theorem break_iff {bol : Bool} {k k' : Caps} {x rest : Str} : Re.Matches reBreak bol k x rest k' ↔
    (x = g!"\n" ∨ x = g!"\r\n") ∧ k' = k := by
  simp only [reBreak, Re.matches_seq, Re.matches_opt, Re.matches_ch]
  constructor
  · rintro ⟨y, z, k₁, rfl, ⟨rfl, rfl⟩ | ⟨rfl, rfl⟩, rfl, rfl⟩
    · exact ⟨Or.inr rfl, rfl⟩
    · exact ⟨Or.inl rfl, rfl⟩
  · rintro ⟨rfl | rfl, rfl⟩
    · exact ⟨[], g!"\n", k', rfl, Or.inr ⟨rfl, rfl⟩, rfl, rfl⟩
    · exact ⟨g!"\r", g!"\n", k', rfl, Or.inl ⟨rfl, rfl⟩, rfl, rfl⟩

theorem star_breaks {r : Re} {bol : Bool} {k k' : Caps} {x rest : Str} (h : Re.Matches r bol k x rest k') :
    ∀ g, r = .star g reBreak → Breaks x := by
  induction h with
  | starNil => intro g _; exact .nil
  | starCons hne h1 h2 _ ih2 =>
    intro g e
    cases e
    obtain ⟨h, -⟩ := break_iff.1 h1
    rcases h with rfl | rfl
    · exact .lf (ih2 _ rfl)
    · exact .crlf (ih2 _ rfl)
  | _ => intro g e; cases e

theorem lines_breaks {bol : Bool} {k k' : Caps} {x rest : Str} (h : Re.Matches reGemLines bol k x rest k') :
    ∃ b t, x = b ++ t ∧ (b = g!"\n" ∨ b = g!"\r\n") ∧ Breaks t := by
  obtain ⟨y, z, k₁, rfl, h1, h2⟩ := Re.matches_seq.1 (show Re.Matches (.seq reBreak (.star true reBreak)) _ _ _ _ _ from h)
  exact ⟨y, z, rfl, (break_iff.1 h1).1, star_breaks h2 true rfl⟩

theorem lines_one (bol : Bool) (b rest : Str) (h : b = g!"\n" ∨ b = g!"\r\n") : Re.Matches reGemLines bol [] b rest [] := by
  refine Re.matches_seq.2 ⟨b, [], [], by simp, break_iff.2 ⟨h, rfl⟩, .starNil⟩

theorem lines_skip {t post : Str} {ls : List Str} (h : Breaks t) (hl : NonEmptyLines post ls) : NonEmptyLines (t ++ post) ls := by
  induction h with
  | nil => exact hl
  | lf _ ih => simpa using NonEmptyLines.lf [] _ ls (by simp) (by simp) ih
  | crlf _ ih => simpa using NonEmptyLines.crlf [] _ ls (by simp) ih

/-- Splitting a text gives its lines, and possibly empty ones. -/
theorem split_lines (fuel : Nat) (bol : Bool) (s : Str) (hf : s.length < fuel) :
    NonEmptyLines s ((Re.splitFrom reGemLines fuel bol s).filter (fun l => !l.isEmpty)) := by
  induction fuel generalizing bol s with
  | zero => omega
  | succ n ih =>
    unfold Re.splitFrom
    cases h : Re.findFrom reGemLines bol s with
    | none =>
      dsimp only
      have hn : '\n' ∉ s := by
        intro hm
        obtain ⟨a, b, e⟩ := List.append_of_mem hm
        exact Re.findFrom_none _ _ _ h a g!"\n" b [] (by rw [e]; simp) (lines_one _ _ _ (Or.inl rfl))
      have := NonEmptyLines.last s hn
      cases s with
      | nil => exact this
      | cons c s => exact this
    | some f =>
      dsimp only
      obtain ⟨e, hm⟩ := Re.findFrom_sound _ _ _ _ h
      obtain ⟨b, t, e2, hb, ht⟩ := lines_breaks hm
      have hmne : f.matched ≠ [] := by rw [e2]; rcases hb with rfl | rfl <;> simp
      rw [if_neg (by simpa using hmne)]
      have hpost : f.post.length < n := by
        have := congrArg List.length e
        have h1 : 0 < f.matched.length := List.length_pos_iff.2 hmne
        simp at this
        omega
      have hrec := lines_skip ht (ih false f.post hpost)
      have hleft := Re.findFrom_leftmost _ _ _ _ h
      have hn : '\n' ∉ f.pre := by
        intro hmem
        obtain ⟨a, b', e3⟩ := List.append_of_mem hmem
        exact hleft a g!"\n" (b' ++ f.matched ++ f.post) [] (by rw [e, e3]; simp) (by rw [e3]; simp) (lines_one _ _ _ (Or.inl rfl))
      have es : s = f.pre ++ b ++ (t ++ f.post) := by
        rw [e, e2]; simp
      rw [List.filter_cons]
      have hif : (if (!f.pre.isEmpty) = true then f.pre :: (Re.splitFrom reGemLines n false f.post).filter (fun l => !l.isEmpty)
          else (Re.splitFrom reGemLines n false f.post).filter (fun l => !l.isEmpty)) =
          (if f.pre = [] then (Re.splitFrom reGemLines n false f.post).filter (fun l => !l.isEmpty)
           else f.pre :: (Re.splitFrom reGemLines n false f.post).filter (fun l => !l.isEmpty)) := by
        cases f.pre <;> simp
      rw [hif]
      rcases hb with rfl | rfl
      · have hcr : ∀ u, f.pre ≠ u ++ ['\r'] := by
          intro u e3
          exact hleft u g!"\r\n" (t ++ f.post) [] (by rw [es, e3]; simp) (by rw [e3]; simp) (lines_one _ _ _ (Or.inr rfl))
        have := NonEmptyLines.lf f.pre _ _ hn hcr hrec
        rw [es]
        simpa using this
      · have := NonEmptyLines.crlf f.pre _ _ hn hrec
        rw [es]
        simpa using this

theorem lines_no_newline {s : Str} {ls : List Str} (h : NonEmptyLines s ls) : ∀ l ∈ ls, '\n' ∉ l := by
  induction h with
  | last t ht => intro l hl; split at hl <;> simp at hl; rw [hl]; exact ht
  | lf l t ls hl _ _ ih => intro x hx; split at hx; exact ih x hx; rcases List.mem_cons.1 hx with rfl | hx; exact hl; exact ih x hx
  | crlf l t ls hl _ ih => intro x hx; split at hx; exact ih x hx; rcases List.mem_cons.1 hx with rfl | hx; exact hl; exact ih x hx

theorem step_empty (p : GemParser) : gemStep p [] = p := by
  have h1 : isSourceSection [] = false := by decide
  have h2 : isNotIndented [] = false := by
    cases h : isNotIndented [] with
    | false => rfl
    | true => obtain ⟨c, t, e, _⟩ := (unindented_iff []).1 h; cases e
  unfold gemStep
  rw [h1, h2]
  rw [if_neg (by simp), if_neg (by simp), if_neg (by simp), if_neg (by simp), if_neg (by simp)]
  simp only [Bool.false_eq_true, if_false]
  unfold GemParser.parseLineBasedOnState
  split
  · split
    · exact (parseSource_spec p [] (by simp)).2.2 (by intro c h; cases h) (by rintro n v ⟨t, h, _⟩; simp at h)
    · rfl
  · rfl

theorem foldl_nonempty (ls : List Str) (p : GemParser) :
    ls.foldl gemStep p = (ls.filter (fun l => !l.isEmpty)).foldl gemStep p := by
  induction ls generalizing p with
  | nil => rfl
  | cons l ls ih =>
    cases l with
    | nil => rw [List.foldl_cons, step_empty, ih]; rfl
    | cons c l => simp only [List.filter_cons, List.isEmpty_cons, Bool.not_false, if_true, List.foldl_cons]; exact ih _

theorem inSource_snoc (pre : List Str) (l : Str) : InSource (pre ++ [l]) ↔ SourceWord l ∨ (InSource pre ∧ ¬ Unindented l) := by
  constructor
  · rintro ⟨a, h, b, e, hh, hb⟩
    rcases List.eq_nil_or_concat b with rfl | ⟨b', x, rfl⟩
    · obtain ⟨rfl, e2⟩ := List.append_inj' e rfl
      cases e2
      exact Or.inl hh
    · have e' : pre ++ [l] = (a ++ h :: b') ++ [x] := by rw [e]; simp
      obtain ⟨rfl, e2⟩ := List.append_inj' e' rfl
      cases e2
      rcases hb l (by simp) with h1 | h1
      · exact Or.inl h1
      · exact Or.inr ⟨⟨a, h, b', rfl, hh, fun y hy => hb y (by simp [hy])⟩, h1⟩
  · rintro (h | ⟨⟨a, h, b, rfl, hh, hb⟩, hu⟩)
    · exact ⟨pre, l, [], rfl, h, by simp⟩
    · refine ⟨a, h, b ++ [l], by simp, hh, ?_⟩
      intro y hy
      rcases List.mem_append.1 hy with hy | hy
      · exact hb y hy
      · simp at hy; rw [hy]; exact Or.inr hu

theorem not_inSource_nil : ¬ InSource [] := by
  rintro ⟨a, h, b, e, _⟩
  cases a <;> cases e

theorem commit_snoc {pre : List Str} {l c : Str} (h : SectionCommit (pre ++ [l]) c) :
    ((SourceWord l ∨ InSource pre) ∧ Revision l c) ∨ (SourceWord l ∧ (∀ c, ¬ Revision l c) ∧ c = []) ∨
    (¬ SourceWord l ∧ ¬ (InSource pre ∧ ∃ r, Revision l r) ∧ SectionCommit pre c) := by
  generalize e : pre ++ [l] = x at h
  cases h with
  | none => simp at e
  | revision pre' l' c h1 h2 =>
    obtain ⟨rfl, e2⟩ := List.append_inj' e rfl
    cases e2
    exact Or.inl ⟨h1, h2⟩
  | source pre' l' h1 h2 =>
    obtain ⟨rfl, e2⟩ := List.append_inj' e rfl
    cases e2
    exact Or.inr (Or.inl ⟨h1, h2, rfl⟩)
  | other pre' l' c h1 h2 h3 =>
    obtain ⟨rfl, e2⟩ := List.append_inj' e rfl
    cases e2
    exact Or.inr (Or.inr ⟨h1, h2, h3⟩)

theorem revision_unique {l c d : Str} (h : Revision l c) (h' : Revision l d) : c = d := by
  unfold Revision at h h'
  rw [h] at h'
  exact List.append_cancel_left h'

theorem commit_unique {pre : List Str} {c d : Str} (h : SectionCommit pre c) (h' : SectionCommit pre d) : c = d := by
  induction h generalizing d with
  | none =>
    generalize e : ([] : List Str) = x at h'
    cases h' with
    | none => rfl
    | revision => simp at e
    | source => simp at e
    | other => simp at e
  | revision pre l c h1 h2 =>
    rcases commit_snoc h' with ⟨_, h3⟩ | ⟨_, h3, _⟩ | ⟨h3, h4, _⟩
    · exact revision_unique h2 h3
    · exact absurd h2 (h3 c)
    · rcases h1 with h1 | h1
      · exact absurd h1 h3
      · exact absurd ⟨h1, c, h2⟩ h4
  | source pre l h1 h2 =>
    rcases commit_snoc h' with ⟨_, h3⟩ | ⟨_, _, rfl⟩ | ⟨h3, _⟩
    · exact absurd h3 (h2 d)
    · rfl
    · exact absurd h1 h3
  | other pre l c h1 h2 _ ih =>
    rcases commit_snoc h' with ⟨h3 | h3, h4⟩ | ⟨h3, _⟩ | ⟨_, _, h3⟩
    · exact absurd h3 h1
    · exact absurd ⟨h3, d, h4⟩ h2
    · exact absurd h3 h1
    · exact ih h3

theorem revision_not_spec {l c n v : Str} (h : Revision l c) : ¬ GemSpecLine l n v := by
  rintro ⟨t, e, _⟩
  unfold Revision at h
  rw [h] at e
  simp at e

/-- What a parser knows after the lines `pre`. -/
structure Inv (pre : List Str) (p : GemParser) : Prop where
  source : p.state = .source ↔ InSource pre
  commit : SectionCommit pre p.currentGemCommit

theorem step_word (pre : List Str) (p : GemParser) (l : Str) (hn : '\n' ∉ l) (hw : SourceWord l) :
    Inv (pre ++ [l]) (gemStep p l) ∧
    ((∃ n v, GemSpecLine l n v ∧ (gemStep p l).dependencies = p.dependencies ++ [⟨n, v, (gemStep p l).currentGemCommit, g!"RubyGems", g!"RubyGems"⟩]) ∨
     ((∀ n v, ¬ GemSpecLine l n v) ∧ (gemStep p l).dependencies = p.dependencies)) := by
  have e : gemStep p l = ({ p with currentGemCommit := [], state := .source } : GemParser).parseSource l := by
    unfold gemStep
    rw [if_pos ((source_iff l).2 hw)]
  have hin : InSource (pre ++ [l]) := (inSource_snoc pre l).2 (Or.inl hw)
  obtain ⟨s1, s2, s3⟩ := parseSource_spec ({ p with currentGemCommit := [], state := .source } : GemParser) l hn
  by_cases hr : ∃ c, Revision l c
  · obtain ⟨c, hc⟩ := hr
    rw [e, s1 c hc]
    exact ⟨⟨⟨fun _ => hin, fun _ => rfl⟩, .revision _ _ _ (Or.inl hw) hc⟩, Or.inr ⟨fun n v => revision_not_spec hc, rfl⟩⟩
  · have hr' : ∀ c, ¬ Revision l c := fun c hc => hr ⟨c, hc⟩
    by_cases hs : ∃ n v, GemSpecLine l n v
    · obtain ⟨n, v, hs⟩ := hs
      rw [e, s2 n v hs]
      exact ⟨⟨⟨fun _ => hin, fun _ => rfl⟩, .source _ _ hw hr'⟩, Or.inl ⟨n, v, hs, rfl⟩⟩
    · have hs' : ∀ n v, ¬ GemSpecLine l n v := fun n v h => hs ⟨n, v, h⟩
      rw [e, s3 hr' hs']
      exact ⟨⟨⟨fun _ => hin, fun _ => rfl⟩, .source _ _ hw hr'⟩, Or.inr ⟨hs', rfl⟩⟩

theorem spec_indented {l n v : Str} (h : GemSpecLine l n v) : ¬ Unindented l := by
  rintro ⟨c, t, e, hc⟩
  obtain ⟨tail, rfl, _⟩ := h
  simp at e
  rw [← e.1] at hc
  exact absurd hc (by decide)

theorem revision_indented {l r : Str} (h : Revision l r) : ¬ Unindented l := by
  rintro ⟨c, t, e, hc⟩
  unfold Revision at h
  rw [h] at e
  simp at e
  rw [← e.1] at hc
  exact absurd hc (by decide)

/-- A line that names no source and is unindented ends the section. -/
theorem step_unindented (p : GemParser) (l : Str) (hw : ¬ SourceWord l) (hu : Unindented l) :
    (gemStep p l).state ≠ .source ∧ (gemStep p l).currentGemCommit = p.currentGemCommit ∧
    (gemStep p l).dependencies = p.dependencies := by
  unfold gemStep
  rw [if_neg (fun h => hw ((source_iff l).1 h)), (unindented_iff l).2 hu]
  by_cases h1 : l = g!"DEPENDENCIES"
  · rw [if_pos h1]; exact ⟨by simp, rfl, rfl⟩
  rw [if_neg h1]
  by_cases h2 : l = g!"PLATFORMS"
  · rw [if_pos h2]; exact ⟨by simp, rfl, rfl⟩
  rw [if_neg h2]
  by_cases h3 : l = g!"RUBY VERSION"
  · rw [if_pos h3]; exact ⟨by simp, rfl, rfl⟩
  rw [if_neg h3]
  by_cases h4 : l = g!"BUNDLED WITH"
  · rw [if_pos h4]; exact ⟨by simp, rfl, rfl⟩
  rw [if_neg h4]
  simp

/-- An indented line that names no source. -/
theorem step_indented (p : GemParser) (l : Str) (hw : ¬ SourceWord l) (hu : ¬ Unindented l) :
    gemStep p l = if p.state = .source then p.parseSource l else p := by
  unfold gemStep
  have hi : isNotIndented l = false := by
    cases h : isNotIndented l with
    | false => rfl
    | true => exact absurd ((unindented_iff l).1 h) hu
  rw [if_neg (fun h => hw ((source_iff l).1 h)), hi]
  rw [if_neg (by rintro rfl; exact hu ⟨_, _, rfl, by decide⟩), if_neg (by rintro rfl; exact hu ⟨_, _, rfl, by decide⟩),
    if_neg (by rintro rfl; exact hu ⟨_, _, rfl, by decide⟩), if_neg (by rintro rfl; exact hu ⟨_, _, rfl, by decide⟩)]
  simp only [Bool.false_eq_true, if_false]
  unfold GemParser.parseLineBasedOnState
  cases h : p.state <;> simp

theorem step_other (pre : List Str) (p : GemParser) (l : Str) (hn : '\n' ∉ l) (hw : ¬ SourceWord l) (hi : Inv pre p) :
    Inv (pre ++ [l]) (gemStep p l) ∧
    ((InSource pre ∧ ∃ n v, GemSpecLine l n v ∧ (gemStep p l).dependencies = p.dependencies ++ [⟨n, v, (gemStep p l).currentGemCommit, g!"RubyGems", g!"RubyGems"⟩]) ∨
     ((InSource pre → ∀ n v, ¬ GemSpecLine l n v) ∧ (gemStep p l).dependencies = p.dependencies)) := by
  by_cases hu : Unindented l
  · obtain ⟨h1, h2, h3⟩ := step_unindented p l hw hu
    refine ⟨⟨?_, ?_⟩, Or.inr ⟨fun _ n v h => spec_indented h hu, h3⟩⟩
    · rw [inSource_snoc]
      constructor
      · intro h; exact absurd h h1
      · rintro (h | ⟨_, h⟩)
        · exact absurd h hw
        · exact absurd hu h
    · rw [h2]
      exact .other _ _ _ hw (fun ⟨_, r, hr⟩ => revision_indented hr hu) hi.commit
  · have hsnoc : InSource (pre ++ [l]) ↔ InSource pre := by
      rw [inSource_snoc]
      exact ⟨fun h => h.elim (fun h => absurd h hw) And.left, fun h => Or.inr ⟨h, hu⟩⟩
    rw [step_indented p l hw hu]
    by_cases hs : p.state = .source
    · rw [if_pos hs]
      have hin := hi.source.1 hs
      obtain ⟨s1, s2, s3⟩ := parseSource_spec p l hn
      by_cases hr : ∃ c, Revision l c
      · obtain ⟨c, hc⟩ := hr
        rw [s1 c hc]
        exact ⟨⟨⟨fun _ => hsnoc.2 hin, fun _ => hs⟩, .revision _ _ _ (Or.inr hin) hc⟩, Or.inr ⟨fun _ n v => revision_not_spec hc, rfl⟩⟩
      · have hr' : ∀ c, ¬ Revision l c := fun c hc => hr ⟨c, hc⟩
        have hc : SectionCommit (pre ++ [l]) p.currentGemCommit := .other _ _ _ hw (fun ⟨_, r, h⟩ => hr' r h) hi.commit
        by_cases hsp : ∃ n v, GemSpecLine l n v
        · obtain ⟨n, v, hsp⟩ := hsp
          rw [s2 n v hsp]
          exact ⟨⟨⟨fun _ => hsnoc.2 hin, fun _ => hs⟩, hc⟩, Or.inl ⟨hin, n, v, hsp, rfl⟩⟩
        · have hs' : ∀ n v, ¬ GemSpecLine l n v := fun n v h => hsp ⟨n, v, h⟩
          rw [s3 hr' hs']
          exact ⟨⟨⟨fun _ => hsnoc.2 hin, fun _ => hs⟩, hc⟩, Or.inr ⟨fun _ => hs', rfl⟩⟩
    · rw [if_neg hs]
      have hnin : ¬ InSource pre := fun h => hs (hi.source.2 h)
      exact ⟨⟨⟨fun h => absurd h hs, fun h => absurd (hsnoc.1 h) hnin⟩, .other _ _ _ hw (fun ⟨h, _⟩ => hnin h) hi.commit⟩,
        Or.inr ⟨fun h => absurd h hnin, rfl⟩⟩

theorem walk (ls : List Str) (hn : ∀ l ∈ ls, '\n' ∉ l) (pre : List Str) (p : GemParser) (hi : Inv pre p) :
    ∃ qs, (ls.foldl gemStep p).dependencies = p.dependencies ++ qs ∧ Entries GemEntry (withPrefixes pre ls) qs := by
  induction ls generalizing pre p with
  | nil => exact ⟨[], by simp, .nil⟩
  | cons l ls ih =>
    have hnl := hn l (by simp)
    rw [List.foldl_cons, withPrefixes]
    have fin : ∀ (hinv : Inv (pre ++ [l]) (gemStep p l)),
        ((∃ n v, (SourceWord l ∨ InSource pre) ∧ GemSpecLine l n v ∧ (gemStep p l).dependencies = p.dependencies ++ [⟨n, v, (gemStep p l).currentGemCommit, g!"RubyGems", g!"RubyGems"⟩]) ∨
         ((SourceWord l ∨ InSource pre → ∀ n v, ¬ GemSpecLine l n v) ∧ (gemStep p l).dependencies = p.dependencies)) →
        ∃ qs, (ls.foldl gemStep (gemStep p l)).dependencies = p.dependencies ++ qs ∧
          Entries GemEntry ((pre, l) :: withPrefixes (pre ++ [l]) ls) qs := by
      intro hinv hc
      obtain ⟨qs, e, hE⟩ := ih (fun x hx => hn x (by simp [hx])) _ _ hinv
      rcases hc with ⟨n, v, hs, hl, hd⟩ | ⟨hno, hd⟩
      · exact ⟨_ :: qs, by rw [e, hd]; simp, .keep ⟨n, v, _, hs, hl, hinv.commit, rfl⟩ hE⟩
      · exact ⟨qs, by rw [e, hd], .skip (fun q ⟨n, v, _, hs, hl, _⟩ => hno hs n v hl) hE⟩
    by_cases hw : SourceWord l
    · obtain ⟨hinv, hc⟩ := step_word pre p l hnl hw
      refine fin hinv ?_
      rcases hc with ⟨n, v, h1, h2⟩ | ⟨h1, h2⟩
      · exact Or.inl ⟨n, v, Or.inl hw, h1, h2⟩
      · exact Or.inr ⟨fun _ => h1, h2⟩
    · obtain ⟨hinv, hc⟩ := step_other pre p l hnl hw hi
      refine fin hinv ?_
      rcases hc with ⟨h0, n, v, h1, h2⟩ | ⟨h1, h2⟩
      · exact Or.inl ⟨n, v, Or.inr h0, h1, h2⟩
      · exact Or.inr ⟨fun h => h.elim (fun h => absurd h hw) h1, h2⟩

theorem inv_start : Inv [] {} := ⟨⟨(fun h => nomatch h), fun h => absurd h not_inSource_nil⟩, .none⟩

end Gem

/-- For every file, the packages are the gems at spec level inside of source sections, in order, with the version
without its platform and the commit of the section. -/
theorem C50_entries (content : Str) : ∃ ls, NonEmptyLines content ls ∧ (parseGemfileLock (some content)).2 = false ∧
    Entries GemEntry (withPrefixes [] ls) (parseGemfileLock (some content)).1 := by
  have hl := Gem.split_lines (content.length + 1) true content (by omega)
  refine ⟨_, hl, rfl, ?_⟩
  obtain ⟨qs, e, hE⟩ := Gem.walk _ (Gem.lines_no_newline hl) [] {} Gem.inv_start
  have : (parseGemfileLock (some content)).1 = qs := by
    show (gemParse content).dependencies = qs
    unfold gemParse Re.split
    rw [Gem.foldl_nonempty, e]
    rfl
  rw [this]
  exact hE

/-- A line stands for at most one package. -/
theorem C50_unique (x : List Str × Str) (p q : PackageDetails) (hp : GemEntry x p) (hq : GemEntry x q) : p = q := by
  obtain ⟨n, v, c, _, h1, h2, rfl⟩ := hp
  obtain ⟨m, w, d, _, h3, h4, rfl⟩ := hq
  obtain ⟨rfl, rfl⟩ := Gem.specLine_unique h1 h3
  rw [Gem.commit_unique h2 h4]

/-- A text has only one list of lines. -/
theorem C50_lines_unique (s : Str) (ls ms : List Str) (h : NonEmptyLines s ls) (h' : NonEmptyLines s ms) : ls = ms := by
  have first : ∀ (a b c d : Str), '\n' ∉ a → '\n' ∉ c → a ++ '\n' :: b = c ++ '\n' :: d → a = c ∧ b = d := by
    intro a b c d ha hc e
    have h1 := cut?_char '\n' a b ha
    rw [e, cut?_char '\n' c d hc] at h1
    have := Option.some.inj h1
    exact ⟨(Prod.mk.inj this).1.symm, (Prod.mk.inj this).2.symm⟩
  induction h generalizing ms with
  | last t ht =>
    generalize e : t = t' at h'
    cases h' with
    | last => rfl
    | lf l t' => exact absurd (by rw [e]; simp) ht
    | crlf l t' => exact absurd (by rw [e]; simp) ht
  | lf l t ls hl hcr _ ih =>
    generalize e : l ++ '\n' :: t = u at h'
    cases h' with
    | last _ hu => exact absurd (by rw [← e]; simp) hu
    | lf l' t' ls' hl' hcr' h' =>
      obtain ⟨rfl, rfl⟩ := first _ _ _ _ hl hl' e
      rw [ih _ h']
    | crlf l' t' ls' hl' h' =>
      obtain ⟨e1, _⟩ := first l t (l' ++ ['\r']) t' hl (by simp [hl']) (by rw [e]; simp)
      exact absurd e1 (hcr l')
  | crlf l t ls hl _ ih =>
    generalize e : l ++ '\r' :: '\n' :: t = u at h'
    cases h' with
    | last _ hu => exact absurd (by rw [← e]; simp) hu
    | lf l' t' ls' hl' hcr' h' =>
      obtain ⟨e1, _⟩ := first (l ++ ['\r']) t l' t' (by simp [hl]) hl' (by rw [← e]; simp)
      exact absurd e1.symm (hcr' l)
    | crlf l' t' ls' hl' h' =>
      obtain ⟨e1, rfl⟩ := first (l ++ ['\r']) t (l' ++ ['\r']) t' (by simp [hl]) (by simp [hl']) (by simpa using e)
      rw [List.append_cancel_right e1, ih _ h']

/-- An unreadable file is an error. -/
theorem C50_unreadable : parseGemfileLock none = ([], true) := rfl

/-- A gem of a source section as Bundler writes it, with its dependencies. -/
structure GemWritten where
  name : Str
  version : Str
  platform : Option Str
  deps : List Str

/-- Kinds of sources. -/
inductive GemKind where
  | git | gem | path | plugin

/-- The header of the section. -/
def GemKind.header : GemKind → Str
  | .git => g!"GIT"
  | .gem => g!"GEM"
  | .path => g!"PATH"
  | .plugin => g!"PLUGIN SOURCE"

/-- A section of a Gemfile.lock. -/
inductive GemSection where
  | source (kind : GemKind) (options : List (Str × Str)) (specs : List GemWritten)
  | other (header : Str) (body : List Str)

/-- `    name (version-platform)`. -/
def GemWritten.line (g : GemWritten) : Str :=
  g!"    " ++ g.name ++ g!" (" ++ g.version ++ (match g.platform with | some pl => g!"-" ++ pl | none => []) ++ g!")"

/-- The gem and its dependencies, one per line. -/
def GemWritten.lines (g : GemWritten) : List Str := g.line :: g.deps.map fun d => g!"      " ++ d

/-- The lines of a section after its header. -/
def GemSection.body : GemSection → List Str
  | .source _ options specs =>
    options.map (fun o => g!"  " ++ o.1 ++ g!": " ++ o.2) ++ g!"  specs:" :: specs.flatMap (·.lines)
  | .other _ body => body.map fun b => g!"  " ++ b

/-- The header of a section. -/
def GemSection.header : GemSection → Str
  | .source k _ _ => k.header
  | .other h _ => h

/-- The text of a file: every section is followed by an empty line. -/
def gemText (doc : List GemSection) : Str :=
  (doc.flatMap fun s => s.header :: s.body ++ [[]]).flatMap fun l => l ++ ['\n']

/-- The last revision of the options. -/
def revisionOf (options : List (Str × Str)) : Str :=
  options.foldl (fun c o => if o.1 = g!"revision" then o.2 else c) []

/-- The packages of a section. -/
def GemSection.packages : GemSection → List PackageDetails
  | .source _ options specs => specs.map fun g => ⟨g.name, g.version, revisionOf options, g!"RubyGems", g!"RubyGems"⟩
  | .other _ _ => []

/-- A line without line breaks. -/
def PlainLine (l : Str) : Prop := '\n' ∉ l ∧ ∀ u, l ≠ u ++ ['\r']

/-- Names have no spaces, versions no hyphens, option names are words; other sections have their own unindented header. -/
def GemSection.OK (s : GemSection) : Prop :=
  (∀ l ∈ s.header :: s.body, PlainLine l) ∧
  match s with
  | .source _ options specs => (∀ o ∈ options, o.1 ≠ [] ∧ ∀ c ∈ o.1, 'a' ≤ c ∧ c ≤ 'z') ∧
      ∀ g ∈ specs, g.name ≠ [] ∧ ' ' ∉ g.name ∧ '-' ∉ g.version
  | .other h body => Unindented h ∧ ¬ SourceWord h ∧ ∀ b ∈ body, ∀ t, b ≠ ' ' :: ' ' :: t

/-- The full claim for files in Bundler's format. It is false: see `C50_commit_counterexample`. -/
def C50_full : Prop := ∀ doc : List GemSection, (∀ s ∈ doc, s.OK) →
  parseGemfileLock (some (gemText doc)) = (doc.flatMap (·.packages), false)

namespace Gem

theorem lines_unlines (ls : List Str) (h : ∀ l ∈ ls, PlainLine l) :
    NonEmptyLines (ls.flatMap fun l => l ++ ['\n']) (ls.filter fun l => !l.isEmpty) := by
  induction ls with
  | nil => exact NonEmptyLines.last [] (by simp)
  | cons l ls ih =>
    have hl := h l (by simp)
    have := NonEmptyLines.lf l _ _ hl.1 hl.2 (ih fun x hx => h x (by simp [hx]))
    rw [List.flatMap_cons, List.append_assoc, List.filter_cons]
    cases l with
    | nil => simpa using this
    | cons c l => simpa using this

theorem parse_lines (content : Str) (ls : List Str) (h : NonEmptyLines content ls) :
    parseGemfileLock (some content) = ((ls.foldl gemStep {}).dependencies, false) := by
  show ((gemParse content).dependencies, false) = _
  unfold gemParse Re.split
  rw [foldl_nonempty, C50_lines_unique _ _ _ (split_lines (content.length + 1) true content (by omega)) h]

theorem option_line {k v c : Str} (hk : ∀ x ∈ k, 'a' ≤ x ∧ x ≤ 'z') (h : Revision (g!"  " ++ k ++ g!": " ++ v) c) :
    k = g!"revision" ∧ v = c := by
  unfold Revision at h
  have e : k ++ ':' :: (' ' :: v) = g!"revision" ++ ':' :: (' ' :: c) := by simpa using h
  have hc : ':' ∉ k := fun hm => absurd (hk _ hm) (by decide)
  have h1 := cut?_char ':' k (' ' :: v) hc
  rw [e, cut?_char ':' g!"revision" _ (by decide)] at h1
  have := Prod.mk.inj (Option.some.inj h1)
  refine ⟨this.1.symm, ?_⟩
  have h2 := this.2
  simp at h2
  exact h2.symm

theorem written_spec (g : GemWritten) (hs : ' ' ∉ g.name) (hne : g.name ≠ []) (hv : '-' ∉ g.version) :
    GemSpecLine g.line g.name g.version := by
  have key : ∀ tail, (∃ u, tail = ' ' :: u) → GemTail tail g.version → g.line = g!"    " ++ g.name ++ tail →
      GemSpecLine g.line g.name g.version := by
    rintro tail ⟨u, rfl⟩ ht e
    refine ⟨_, e, ?_, ht, ?_⟩
    · intro t e2
      cases hn : g.name with
      | nil => exact hne hn
      | cons c n =>
        rw [hn] at e2
        simp at e2
        exact hs (by rw [hn, e2.1]; simp)
    · intro a b w e2 hb hw
      cases b with
      | nil => exact hb rfl
      | cons c b =>
        have hc : c ≠ ' ' := fun h => hs (by rw [e2, h]; simp)
        generalize ht' : c :: b ++ ' ' :: u = t at hw
        cases hw with
        | bare _ h => rcases h with rfl | rfl <;> simp at ht'
        | version => simp at ht'; exact hc ht'.1
        | platform => simp at ht'; exact hc ht'.1
  cases hp : g.platform with
  | none =>
    refine key _ ⟨_, rfl⟩ (by simpa using GemTail.version g.version [] hv (Or.inl rfl)) ?_
    unfold GemWritten.line
    rw [hp]; simp
  | some pl =>
    refine key _ ⟨_, rfl⟩ (by simpa using GemTail.platform g.version pl [] hv (Or.inl rfl)) ?_
    unfold GemWritten.line
    rw [hp]; simp

theorem source_step (p : GemParser) (hp : p.state = .source) (l : Str) (hw : ¬ SourceWord l) (hi : ∃ t, l = ' ' :: t) :
    gemStep p l = p.parseSource l := by
  rw [step_indented p l hw, if_pos hp]
  rintro ⟨c, t, e, hc⟩
  obtain ⟨t', rfl⟩ := hi
  simp at e
  rw [← e.1] at hc
  exact absurd hc (by decide)

theorem options_fold (options : List (Str × Str)) (p : GemParser) (hp : p.state = .source)
    (ho : ∀ o ∈ options, o.1 ≠ [] ∧ ∀ c ∈ o.1, 'a' ≤ c ∧ c ≤ 'z')
    (hl : ∀ l ∈ options.map (fun o => g!"  " ++ o.1 ++ g!": " ++ o.2), '\n' ∉ l ∧ ¬ SourceWord l) :
    (options.map (fun o => g!"  " ++ o.1 ++ g!": " ++ o.2)).foldl gemStep p =
      { p with currentGemCommit := options.foldl (fun c o => if o.1 = g!"revision" then o.2 else c) p.currentGemCommit } := by
  induction options generalizing p with
  | nil => rfl
  | cons o options ih =>
    rw [List.map_cons, List.foldl_cons, List.foldl_cons]
    obtain ⟨hn, hw⟩ := hl (g!"  " ++ o.1 ++ g!": " ++ o.2) (by rw [List.map_cons]; exact List.mem_cons_self)
    obtain ⟨hne, hk⟩ := ho o (by simp)
    rw [source_step p hp _ hw ⟨_, rfl⟩]
    obtain ⟨s1, s2, s3⟩ := parseSource_spec p _ hn
    have e : p.parseSource (g!"  " ++ o.1 ++ g!": " ++ o.2) =
        { p with currentGemCommit := if o.1 = g!"revision" then o.2 else p.currentGemCommit } := by
      by_cases hr : o.1 = g!"revision"
      · rw [if_pos hr]
        exact s1 o.2 (by unfold Revision; rw [hr]; rfl)
      · rw [if_neg hr]
        refine s3 (fun c h => hr (option_line hk h).1) ?_
        rintro n v ⟨t, e, _⟩
        cases hk1 : o.1 with
        | nil => exact hne hk1
        | cons c k =>
          rw [hk1] at e
          simp at e
          exact absurd (hk ' ' (by rw [hk1, e.1]; simp)) (by decide)
    rw [e]
    exact ih _ hp (fun x hx => ho x (by simp [hx])) (fun x hx => hl x (by rw [List.map_cons]; exact List.mem_cons_of_mem _ hx))

theorem deps_fold (ds : List Str) (p : GemParser) (hp : p.state = .source)
    (hl : ∀ l ∈ ds.map (fun d => g!"      " ++ d), '\n' ∉ l ∧ ¬ SourceWord l) :
    (ds.map fun d => g!"      " ++ d).foldl gemStep p = p := by
  induction ds with
  | nil => rfl
  | cons d ds ih =>
    rw [List.map_cons, List.foldl_cons]
    obtain ⟨hn, hw⟩ := hl (g!"      " ++ d) (by simp)
    rw [source_step p hp _ hw ⟨_, rfl⟩, (parseSource_spec p _ hn).2.2, ih (fun x hx => hl x (by rw [List.map_cons]; exact List.mem_cons_of_mem _ hx))]
    · intro c h
      unfold Revision at h
      simp at h
    · rintro n v ⟨t, e, h, _⟩
      have : n ++ t = ' ' :: (' ' :: d) := by
        have e' : g!"    " ++ (n ++ t) = g!"    " ++ (' ' :: ' ' :: d) := by rw [← List.append_assoc, ← e]; rfl
        exact List.append_cancel_left e'
      exact h _ this

theorem specs_fold (specs : List GemWritten) (p : GemParser) (hp : p.state = .source)
    (hg : ∀ g ∈ specs, g.name ≠ [] ∧ ' ' ∉ g.name ∧ '-' ∉ g.version)
    (hl : ∀ l ∈ specs.flatMap (·.lines), '\n' ∉ l ∧ ¬ SourceWord l) :
    (specs.flatMap (·.lines)).foldl gemStep p = { p with
      dependencies := p.dependencies ++ specs.map fun g => ⟨g.name, g.version, p.currentGemCommit, g!"RubyGems", g!"RubyGems"⟩ } := by
  induction specs generalizing p with
  | nil => simp
  | cons g specs ih =>
    rw [List.flatMap_cons] at hl ⊢
    rw [List.foldl_append]
    unfold GemWritten.lines at hl ⊢
    rw [List.foldl_cons]
    obtain ⟨hn, hw⟩ := hl g.line (by simp)
    obtain ⟨h1, h2, h3⟩ := hg g (by simp)
    rw [source_step p hp _ hw ⟨_, rfl⟩, (parseSource_spec p _ hn).2.1 _ _ (written_spec g h2 h1 h3),
      deps_fold g.deps (p.addDependency g.name g.version) hp]
    · unfold GemWritten.lines at ih
      rw [ih (p.addDependency g.name g.version) hp (fun x hx => hg x (by simp [hx])) (fun x hx => hl x (List.mem_append_right _ hx))]
      simp [GemParser.addDependency, bundlerEcosystem]
    · intro x hx
      exact hl x (List.mem_append_left _ (List.mem_cons_of_mem _ hx))

theorem kind_word (k : GemKind) : SourceWord k.header := by
  cases k
  · exact ⟨[], g!"GIT", [], rfl, by simp⟩
  · exact ⟨[], g!"GEM", [], rfl, by simp⟩
  · exact ⟨[], g!"PATH", [], rfl, by simp⟩
  · exact ⟨[], g!"PLUGIN SOURCE", [], rfl, by simp⟩

theorem section_fold (s : GemSection) (hs : s.OK) (hb : ∀ l ∈ s.body, ¬ SourceWord l) (p : GemParser) :
    ((s.header :: s.body).foldl gemStep p).dependencies = p.dependencies ++ s.packages := by
  obtain ⟨hplain, hok⟩ := hs
  cases s with
  | source k options specs =>
    obtain ⟨ho, hg⟩ := hok
    have hh : gemStep p k.header = { p with currentGemCommit := [], state := .source } := by
      unfold gemStep
      rw [if_pos ((source_iff _).2 (kind_word k))]
      apply (parseSource_spec _ _ (by cases k <;> decide)).2.2
      · intro c h
        unfold Revision at h
        cases k <;> simp [GemKind.header] at h
      · rintro n v ⟨t, h, _⟩
        cases k <;> simp [GemKind.header] at h
    rw [List.foldl_cons]
    show (List.foldl gemStep (gemStep p k.header) _).dependencies = _
    rw [hh]
    simp only [GemSection.body] at hplain hb ⊢
    rw [List.foldl_append, List.foldl_cons]
    have hl : ∀ l ∈ options.map (fun o => g!"  " ++ o.1 ++ g!": " ++ o.2) ++ g!"  specs:" :: specs.flatMap (·.lines),
        '\n' ∉ l ∧ ¬ SourceWord l := fun l hl => ⟨(hplain l (List.mem_cons_of_mem _ hl)).1, hb l hl⟩
    rw [options_fold options _ rfl ho (fun l h => hl l (List.mem_append_left _ h))]
    obtain ⟨hn, hw⟩ := hl g!"  specs:" (by simp)
    rw [source_step _ rfl _ hw ⟨_, rfl⟩, (parseSource_spec _ _ hn).2.2, specs_fold specs _ rfl hg]
    · rfl
    · intro l h
      exact hl l (List.mem_append_right _ (List.mem_cons_of_mem _ h))
    · intro c h
      unfold Revision at h
      simp at h
    · rintro n v ⟨t, h, _⟩
      simp at h
  | other h body =>
    obtain ⟨hu, hw, hx⟩ := hok
    clear hx
    rw [List.foldl_cons]
    show (List.foldl gemStep (gemStep p h) _).dependencies = p.dependencies ++ []
    obtain ⟨h1, h2, h3⟩ := step_unindented p h hw hu
    rw [← h3, List.append_nil]
    generalize gemStep p h = q at h1
    simp only [GemSection.body] at hb ⊢
    clear hplain
    induction body with
    | nil => rfl
    | cons b body ih =>
      rw [List.map_cons, List.foldl_cons, step_indented q _ (hb _ (by simp)), if_neg h1]
      · apply ih
        intro x hx; exact hb x (by rw [List.map_cons]; exact List.mem_cons_of_mem _ hx)
      · rintro ⟨c, t, e, hc⟩
        simp at e
        rw [← e.1] at hc
        exact absurd hc (by decide)

end Gem

/-- Files in Bundler's format: every gem of a source section is reported once, in order, with its version without
platform and the commit of the section; dependencies of gems and other sections are not reported. Missing for the full
claim: lines other than headers must not contain `GIT`, `GEM`, `PATH` or `PLUGIN SOURCE`. -/
theorem C50_written_partial (doc : List GemSection) (h : ∀ s ∈ doc, s.OK) (hw : ∀ s ∈ doc, ∀ l ∈ s.body, ¬ SourceWord l) :
    parseGemfileLock (some (gemText doc)) = (doc.flatMap (·.packages), false) := by
  unfold gemText
  rw [Gem.parse_lines _ _ (Gem.lines_unlines _ ?_)]
  · rw [← Gem.foldl_nonempty]
    have : ∀ p : GemParser, ((doc.flatMap fun s => s.header :: s.body ++ [[]]).foldl gemStep p).dependencies =
        p.dependencies ++ doc.flatMap (·.packages) := by
      induction doc with
      | nil => simp
      | cons s doc ih =>
        intro p
        rw [List.flatMap_cons, List.foldl_append, ih (fun x hx => h x (by simp [hx])) (fun x hx => hw x (by simp [hx])),
          List.foldl_append, List.foldl_cons, List.foldl_nil, Gem.step_empty,
          Gem.section_fold s (h s (by simp)) (hw s (by simp)), List.flatMap_cons, List.append_assoc]
    rw [this]
    rfl
  · intro l hl
    obtain ⟨s, hs, hl⟩ := List.mem_flatMap.1 hl
    rcases List.mem_append.1 hl with hl | hl
    · exact (h s hs).1 l hl
    · simp at hl; rw [hl]; exact ⟨by simp, by simp⟩

/-- A git source whose tag contains `GEM`. -/
def gemTagDoc : List GemSection :=
  [.source .git [(g!"remote", g!"https://example.com/foo.git"), (g!"revision", g!"0123abcd"), (g!"tag", g!"GEM-1.0")]
    [⟨g!"foo", g!"1.0", none, []⟩]]

/-- The commit of a git source is lost if a later option contains one of the section names: the full claim is false. -/
theorem C50_commit_counterexample : ¬ C50_full := by
  intro h
  have h1 := h gemTagDoc (by
    intro s hs
    simp [gemTagDoc] at hs
    subst hs
    refine ⟨?_, ?_, ?_⟩
    · intro l hl
      simp [GemSection.header, GemSection.body, GemKind.header, GemWritten.lines, GemWritten.line] at hl
      rcases hl with rfl | rfl | rfl | rfl | rfl | rfl <;>
        exact ⟨by decide, fun u e => absurd (congrArg List.getLast? e) (by simp)⟩
    · intro o ho
      simp at ho
      rcases ho with rfl | rfl | rfl <;> exact ⟨by simp, by decide⟩
    · intro g hg
      simp at hg
      subst hg
      exact ⟨by simp, by decide, by decide⟩)
  have h2 : parseGemfileLock (some (gemText gemTagDoc)) = ([⟨g!"foo", g!"1.0", [], g!"RubyGems", g!"RubyGems"⟩], false) := by
    decide +kernel
  rw [h2] at h1
  exact absurd h1 (by decide +kernel)

/-- A document with several sections. -/
def gemSampleDoc : List GemSection :=
  [.source .git [(g!"remote", g!"https://example.com/foo.git"), (g!"revision", g!"0123abcd")] [⟨g!"foo", g!"1.0", none, [g!"bar (>= 2)"]⟩],
   .source .gem [(g!"remote", g!"https://rubygems.org/")] [⟨g!"nokogiri", g!"1.11.3", some g!"x86_64-linux", []⟩],
   .other g!"DEPENDENCIES" [g!"nokogiri", g!"foo!"]]

/-- The hypotheses of `C50_written_partial` can be met, and the result is as expected. -/
example : (∀ s ∈ gemSampleDoc, s.OK) ∧ (∀ s ∈ gemSampleDoc, ∀ l ∈ s.body, ¬ SourceWord l) ∧
    gemSampleDoc.flatMap (·.packages) = [⟨g!"foo", g!"1.0", g!"0123abcd", g!"RubyGems", g!"RubyGems"⟩,
      ⟨g!"nokogiri", g!"1.11.3", [], g!"RubyGems", g!"RubyGems"⟩] := by
  refine ⟨?_, ?_, by decide⟩
  · intro s hs
    simp [gemSampleDoc] at hs
    rcases hs with rfl | rfl | rfl
    · refine ⟨?_, ?_, ?_⟩
      · intro l hl
        simp [GemSection.header, GemSection.body, GemKind.header, GemWritten.lines, GemWritten.line] at hl
        rcases hl with rfl | rfl | rfl | rfl | rfl | rfl <;>
          exact ⟨by decide, fun u e => absurd (congrArg List.getLast? e) (by simp)⟩
      · intro o ho
        simp at ho
        rcases ho with rfl | rfl <;> exact ⟨by simp, by decide⟩
      · intro g hg
        simp at hg
        subst hg
        exact ⟨by simp, by decide, by decide⟩
    · refine ⟨?_, ?_, ?_⟩
      · intro l hl
        simp [GemSection.header, GemSection.body, GemKind.header, GemWritten.lines, GemWritten.line] at hl
        rcases hl with rfl | rfl | rfl | rfl <;>
          exact ⟨by decide, fun u e => absurd (congrArg List.getLast? e) (by simp)⟩
      · intro o ho
        simp at ho
        rcases ho with rfl; exact ⟨by simp, by decide⟩
      · intro g hg
        simp at hg
        subst hg
        exact ⟨by simp, by decide, by decide⟩
    · refine ⟨?_, ?_, ?_, ?_⟩
      · intro l hl
        simp [GemSection.header, GemSection.body] at hl
        rcases hl with rfl | rfl | rfl <;>
          exact ⟨by decide, fun u e => absurd (congrArg List.getLast? e) (by simp)⟩
      · exact ⟨_, _, rfl, by decide⟩
      · rw [← Gem.source_iff]; decide
      · intro b hb
        simp at hb
        rcases hb with rfl | rfl <;> simp
  · intro s hs l hl
    rw [← Gem.source_iff]
    simp [gemSampleDoc] at hs
    rcases hs with rfl | rfl | rfl <;>
      simp [GemSection.body, GemWritten.lines, GemWritten.line] at hl
    · rcases hl with rfl | rfl | rfl | rfl | rfl <;> decide
    · rcases hl with rfl | rfl | rfl <;> decide
    · rcases hl with rfl | rfl <;> decide

end Osv
