import Verif.Spec.Disk
import Verif.Lemmas.NpmPath
import Verif.Lemmas.PnpmRule
/-! # Following cleaned paths -/
namespace Osv
open Str Spec

namespace Disk

variable {α : Type} {D : Disk α}

theorem walk_append {a b : List Str} {s m : α} : Walk D s (a ++ b) m ↔ ∃ k, Walk D s a k ∧ Walk D k b m := by
  induction a generalizing s with
  | nil =>
    constructor
    · intro h; exact ⟨s, .done s, h⟩
    · rintro ⟨k, h, h'⟩; cases h; exact h'
  | cons c a ih =>
    constructor
    · intro h
      rw [List.cons_append] at h
      cases h with
      | stay h1 h2 h3 => obtain ⟨k, h4, h5⟩ := ih.1 h3; exact ⟨k, .stay h1 h2 h4, h5⟩
      | up h1 h3 => obtain ⟨k, h4, h5⟩ := ih.1 h3; exact ⟨k, .up h1 h4, h5⟩
      | down h1 h2 hc h3 => obtain ⟨k, h4, h5⟩ := ih.1 h3; exact ⟨k, .down h1 h2 hc h4, h5⟩
    · rintro ⟨k, h, h'⟩
      rw [List.cons_append]
      cases h with
      | stay h1 h2 h3 => exact .stay h1 h2 (ih.2 ⟨k, h3, h'⟩)
      | up h1 h3 => exact .up h1 (ih.2 ⟨k, h3, h'⟩)
      | down h1 h2 hc h3 => exact .down h1 h2 hc (ih.2 ⟨k, h3, h'⟩)

theorem walk_dir {s m : α} {c : Str} {ps : List Str} (h : Walk D s (c :: ps) m) : D.isDir s := by
  cases h <;> assumption

theorem walk_unique {s m m' : α} {ps : List Str} (h : Walk D s ps m) (h' : Walk D s ps m') : m = m' := by
  induction h with
  | done n => cases h'; rfl
  | stay _ h2 _ ih =>
    cases h' with
    | stay _ _ h3 => exact ih h3
    | up _ _ => rcases h2 with h | h <;> cases h
    | down _ h3 _ _ => rcases h2 with h | h <;> simp [EntryName, h] at h3
  | up _ _ ih =>
    cases h' with
    | stay _ h2 _ => rcases h2 with h | h <;> cases h
    | up _ h3 => exact ih h3
    | down _ h3 _ _ => exact absurd rfl h3.2.2
  | down _ h2 h3 _ ih =>
    cases h' with
    | stay _ h _ => rcases h with h | h <;> simp [EntryName, h] at h2
    | up _ _ => exact absurd rfl h2.2.2
    | down _ _ h4 h5 => rw [h3] at h4; cases h4; exact ih h5

theorem walk_name {k n : α} {name : Str} (hn : EntryName name) : Walk D k [name] n ↔ D.isDir k ∧ D.child k name = some n := by
  constructor
  · intro h
    cases h with
    | stay _ h _ => rcases h with h | h <;> simp [EntryName, h] at hn
    | up _ _ => exact absurd rfl hn.2.2
    | down h1 _ h2 h3 => cases h3; exact ⟨h1, h2⟩
  · rintro ⟨h1, h2⟩
    exact .down h1 hn h2 (.done _)

/-- The loop of `Clean` keeps the meaning. -/
theorem walk_cleanComps (hT : Tree D) {rooted : Bool} {s : α} (hs : rooted = true → s = D.root) (cs acc : List Str) {n m : α}
    (hacc : Path.NormalStack rooted acc) (h1 : Walk D s acc.reverse n) (h2 : Walk D n cs m) :
    Walk D s (Path.cleanComps rooted acc cs) m := by
  induction cs generalizing acc n with
  | nil => cases h2; exact h1
  | cons c cs ih =>
    unfold Path.cleanComps
    split
    · rename_i hc
      cases h2 with
      | stay _ _ h3 => exact ih acc hacc h1 h3
      | up _ h3 => rcases hc with h | h <;> cases h
      | down _ h3 _ _ => rcases hc with h | h <;> simp [EntryName, h] at h3
    · rename_i hc
      split
      · rename_i hup
        subst hup
        have h3 : D.isDir n ∧ Walk D (D.up n) cs m := by
          cases h2 with
          | stay _ h _ => rcases h with h | h <;> cases h
          | up h4 h3 => exact ⟨h4, h3⟩
          | down _ h3 _ _ => exact absurd rfl h3.2.2
        split
        · have hn : s = n := by cases h1; rfl
          subst hn
          cases rooted with
          | true =>
            rw [if_pos rfl]
            rw [hs rfl, hT.root_up] at h3
            refine ih [] ⟨0, [], rfl, by simp, by simp⟩ ?_ h3.2
            rw [hs rfl]; exact .done _
          | false =>
            rw [if_neg (by simp)]
            exact ih _ ⟨1, [], rfl, by simp, by simp⟩ (.up h3.1 (.done _)) h3.2
        · rename_i a as
          obtain ⟨i, ps, he, hi, hp⟩ := hacc
          split
          · rename_i ha
            subst ha
            cases ps with
            | nil =>
              cases rooted with
              | true => rw [hi rfl] at he; simp at he
              | false =>
                refine ih _ ⟨i + 1, [], ?_, by simp, by simp⟩ ?_ h3.2
                · rw [List.nil_append, List.replicate_succ, he]; rfl
                · rw [List.reverse_cons]
                  exact walk_append.2 ⟨n, h1, .up h3.1 (.done _)⟩
            | cons p ps =>
              rw [List.cons_append] at he
              injection he with e1 e2
              exact absurd e1.symm (hp p (by simp)).2.2
          · rename_i ha
            cases ps with
            | nil =>
              cases i with
              | zero => simp at he
              | succ i => rw [List.nil_append, List.replicate_succ] at he; cases he; exact absurd rfl ha
            | cons p ps =>
              rw [List.cons_append] at he
              cases he
              rw [List.reverse_cons] at h1
              obtain ⟨k, h4, h5⟩ := walk_append.1 h1
              obtain ⟨h6, h7⟩ := (walk_name (hp a (by simp))).1 h5
              refine ih _ ⟨i, ps, rfl, hi, fun q hq => hp q (by simp [hq])⟩ h4 ?_
              rw [hT.child_up _ _ _ h6 h7 h3.1] at h3
              exact h3.2
      · rename_i hup
        have hplain : EntryName c := ⟨fun h => hc (.inl h), fun h => hc (.inr h), hup⟩
        cases h2 with
        | stay _ h _ => exact absurd h hc
        | up _ _ => exact absurd rfl hup
        | down h3 _ h4 h5 =>
          obtain ⟨i, ps, rfl, hi, hp⟩ := hacc
          refine ih _ ⟨i, c :: ps, rfl, hi, ?_⟩ ?_ h5
          · intro p hp'
            rcases List.mem_cons.1 hp' with rfl | hp'
            · exact hplain
            · exact hp p hp'
          · rw [List.reverse_cons]
            exact walk_append.2 ⟨n, h1, .down h3 hplain h4 (.done _)⟩

/-- `Clean` keeps a plain element at the end. -/
theorem cleanComps_snoc (rooted : Bool) (cs acc : List Str) {name : Str} (hn : EntryName name) :
    Path.cleanComps rooted acc (cs ++ [name]) = Path.cleanComps rooted acc cs ++ [name] := by
  induction cs generalizing acc with
  | nil =>
    obtain ⟨h1, h2, h3⟩ := hn
    simp [Path.cleanComps, h1, h2, h3]
  | cons c cs ih =>
    rw [List.cons_append]
    unfold Path.cleanComps
    split
    · exact ih _
    · split
      · split
        · split <;> exact ih _
        · split <;> exact ih _
      · exact ih _

/-- Segments of a path. -/
theorem seg {s : Str} {ps : List Str} : Segments s ps ↔ splitChar '/' s = ps := Pnpm.segments_iff

theorem seg_head (p : Str) : splitChar '/' ('/' :: p) = [] :: splitChar '/' p := by
  have := splitChar_append '/' [] p (by simp)
  simpa using this

theorem seg_concat (a b : Str) : splitChar '/' (a ++ '/' :: b) = splitChar '/' a ++ splitChar '/' b := by
  have h := Pnpm.segments_iff (s := a ++ '/' :: b) (ps := splitChar '/' a ++ splitChar '/' b)
  refine h.1 ⟨by simp [splitChar_ne_nil], ?_, ?_⟩
  · intro p hp
    rcases List.mem_append.1 hp with h | h
    · exact not_mem_splitChar '/' a p h
    · exact not_mem_splitChar '/' b p h
  · have key : ∀ l l' : List Str, l ≠ [] → l' ≠ [] → join g!"/" (l ++ l') = join g!"/" l ++ '/' :: join g!"/" l' := by
      intro l
      induction l with
      | nil => intro _ h; exact absurd rfl h
      | cons x l ih =>
        intro l' _ h'
        cases l with
        | nil =>
          obtain ⟨y, l', rfl⟩ := List.exists_cons_of_ne_nil h'
          simp [join]
        | cons z l =>
          have := ih l' (by simp) h'
          have ej : ∀ (x z : Str) (l : List Str), join g!"/" (x :: z :: l) = x ++ g!"/" ++ join g!"/" (z :: l) := fun _ _ _ => rfl
          simp only [List.cons_append] at this ⊢
          rw [ej, ej, this]
          simp
    rw [key _ _ (splitChar_ne_nil _ _) (splitChar_ne_nil _ _), join_splitChar, join_splitChar]

/-- The elements of a cleaned path. -/
theorem clean_rooted (r : Str) : ∃ t, Path.clean ('/' :: r) = '/' :: t ∧
    t = join g!"/" (Path.cleanComps true [] (splitChar '/' ('/' :: r))) := by
  refine ⟨_, ?_, rfl⟩
  unfold Path.clean
  simp

theorem clean_relative {p : Str} (hp : p ≠ []) (hr : Relative p) :
    Path.clean p = if Path.cleanComps false [] (splitChar '/' p) = [] then g!"." else
      join g!"/" (Path.cleanComps false [] (splitChar '/' p)) := by
  have h1 : ¬ p.head? = some '/' := by
    intro h
    cases p with
    | nil => cases h
    | cons c p => simp only [List.head?_cons, Option.some.injEq] at h; subst h; exact hr p rfl
  have hrel := Path.cleanComps_normal false (splitChar '/' p) [] ⟨0, [], rfl, by simp, by simp⟩
  unfold Path.clean
  rw [if_neg hp, if_neg h1]
  dsimp only
  by_cases hc : Path.cleanComps false [] (splitChar '/' p) = []
  · rw [hc]; simp [join]
  · rw [if_neg hc, if_neg]
    obtain ⟨c, cs, e⟩ := List.exists_cons_of_ne_nil hc
    have hne := Path.normal_head_ne false _ hrel c (by rw [e]; simp)
    obtain ⟨t, ht⟩ := Path.join_head g!"/" c cs
    rw [e, ht]
    simp [hne]

theorem start_rooted (cwd : α) (r : Str) : start D cwd ('/' :: r) = D.root := by simp [start]

theorem start_relative (cwd : α) {p : Str} (hr : Relative p) : start D cwd p = cwd := by
  unfold start
  rw [if_neg]
  intro h
  cases p with
  | nil => cases h
  | cons c p => simp only [List.head?_cons, Option.some.injEq] at h; subst h; exact hr p rfl

theorem rooted_or (p : Str) : (∃ r, p = '/' :: r) ∨ Relative p := by
  by_cases h : ∃ r, p = '/' :: r
  · exact Or.inl h
  · exact Or.inr fun q e => h ⟨q, e⟩

theorem relative_join {c : Str} {cs : List Str} (hc : c ≠ []) (hs : '/' ∉ c) : Relative (join g!"/" (c :: cs)) := by
  obtain ⟨t, ht⟩ := Path.join_head g!"/" c cs
  rw [ht]
  intro q e
  cases c with
  | nil => exact hc rfl
  | cons a c =>
    injection e with e1 _
    subst e1
    simp at hs

theorem empty_stack (rooted : Bool) : Path.NormalStack rooted [] := ⟨0, [], rfl, fun _ => rfl, by simp⟩

/-- Where the cleaned path leads, by its kept elements. -/
theorem opens_clean_iff (hT : Tree D) {cwd : α} {p : Str} {ps : List Str} (hp : p ≠ []) (hps : Segments p ps) {rooted : Bool}
    (hr : rooted = true ↔ ∃ r, p = '/' :: r) (hd : D.isDir (start D cwd p)) (n : α) :
    Opens D cwd (Path.clean p) n ↔ Walk D (start D cwd p) (Path.cleanComps rooted [] ps) n := by
  have e : splitChar '/' p = ps := seg.1 hps
  rcases rooted_or p with ⟨r, rfl⟩ | hrel
  · have hroot : rooted = true := hr.2 ⟨r, rfl⟩
    subst hroot
    obtain ⟨t, ht, et⟩ := clean_rooted r
    rw [e] at et
    unfold Opens
    rw [ht, start_rooted, start_rooted]
    constructor
    · rintro ⟨_, qs, hqs, hw⟩
      rw [seg, seg_head] at hqs
      subst hqs
      have hw' : Walk D D.root (splitChar '/' t) n := by
        cases hw with
        | stay _ _ h => exact h
        | down _ h _ _ => exact absurd rfl h.1
      by_cases hc : Path.cleanComps true [] ps = []
      · rw [et, hc] at hw'
        rw [hc]
        have hw'' : Walk D D.root [[]] n := hw'
        cases hw'' with
        | stay _ _ h => exact h
        | down _ h _ _ => exact absurd rfl h.1
      · rw [et, ← e, Path.splitChar_join_clean true _ (by rw [e]; exact hc), e] at hw'
        exact hw'
    · intro hw
      refine ⟨by simp, _, seg.2 (seg_head t), .stay hT.root_dir (Or.inl rfl) ?_⟩
      by_cases hc : Path.cleanComps true [] ps = []
      · rw [hc] at hw
        rw [et, hc]
        cases hw
        exact .stay hT.root_dir (Or.inl rfl) (.done _)
      · rw [et, ← e, Path.splitChar_join_clean true _ (by rw [e]; exact hc), e]
        exact hw
  · have hroot : rooted = false := by
      cases rooted with
      | false => rfl
      | true => obtain ⟨r, e⟩ := hr.1 rfl; exact absurd e (hrel r)
    subst hroot
    rw [start_relative cwd hrel] at hd ⊢
    rw [clean_relative hp hrel, e]
    by_cases hc : Path.cleanComps false [] ps = []
    · rw [if_pos hc, hc]
      unfold Opens
      rw [start_relative cwd (by intro q e; cases e)]
      constructor
      · rintro ⟨_, qs, hqs, hw⟩
        rw [seg] at hqs
        subst hqs
        have hw' : Walk D cwd [g!"."] n := hw
        cases hw' with
        | stay _ _ h => exact h
        | down _ h _ _ => exact absurd rfl h.2.1
      · intro hw
        cases hw
        exact ⟨by simp, [g!"."], seg.2 rfl, .stay hd (Or.inr rfl) (.done _)⟩
    · rw [if_neg hc]
      have hs := Path.splitChar_join_clean false p (by rw [e]; exact hc)
      rw [e] at hs
      have hnorm := Path.cleanComps_normal false ps [] (empty_stack _)
      have hsl := Path.not_slash_cleanComps false p
      rw [e] at hsl
      have hrel' : Relative (join g!"/" (Path.cleanComps false [] ps)) := by
        obtain ⟨c, cs, ec⟩ := List.exists_cons_of_ne_nil hc
        rw [ec]
        exact relative_join (Path.normal_head_ne false _ hnorm c (by rw [ec]; simp)) (hsl c (by rw [ec]; simp))
      unfold Opens
      rw [start_relative cwd hrel']
      constructor
      · rintro ⟨_, qs, hqs, hw⟩
        rw [seg, hs] at hqs
        exact hqs ▸ hw
      · intro hw
        refine ⟨?_, _, seg.2 hs, hw⟩
        intro e0
        rw [e0] at hs
        have : Path.cleanComps false [] ps = [[]] := hs.symm
        exact Path.normal_head_ne false _ hnorm [] (by rw [this]; simp) rfl

theorem rooted_flag (p : Str) : ∃ rooted : Bool, (rooted = true ↔ ∃ r, p = '/' :: r) ∧ (rooted = true → ∀ {cwd : α}, start D cwd p = D.root) := by
  rcases rooted_or p with ⟨r, rfl⟩ | h
  · exact ⟨true, by simp, fun _ cwd => start_rooted cwd r⟩
  · refine ⟨false, ⟨?_, ?_⟩, ?_⟩
    · intro e; cases e
    · rintro ⟨r, e⟩; exact absurd e (h r)
    · intro e; cases e

/-- A cleaned path stands for the same file. -/
theorem clean_opens (hT : Tree D) {cwd : α} {p : Str} {n : α} (h : Opens D cwd p n) : Opens D cwd (Path.clean p) n := by
  obtain ⟨hp, ps, hps, hw⟩ := h
  obtain ⟨rooted, hr, hroot⟩ := rooted_flag (D := D) p
  have hd : D.isDir (start D cwd p) := by
    obtain ⟨c, cs, rfl⟩ := List.exists_cons_of_ne_nil hps.1
    exact walk_dir hw
  exact (opens_clean_iff hT hp hps hr hd n).2 (walk_cleanComps hT (fun h => hroot h) ps [] (empty_stack _) (.done _) hw)

/-- An entry of a directory, by a path that is cleaned. -/
theorem opens_clean_entry (hT : Tree D) {cwd : α} {a name : Str} {d : α} (h : Opens D cwd a d) (hd : D.isDir d)
    (hn : EntryName name) (hs : '/' ∉ name) (n : α) :
    Opens D cwd (Path.clean (a ++ '/' :: name)) n ↔ D.child d name = some n := by
  obtain ⟨ha, ps, hps, hw⟩ := h
  have hps' : Segments (a ++ '/' :: name) (ps ++ [name]) := by
    rw [seg, seg_concat, seg.1 hps, splitChar_of_not_mem _ _ hs]
  have hst : start D cwd (a ++ '/' :: name) = start D cwd a := by
    unfold start
    cases a with
    | nil => exact absurd rfl ha
    | cons c a => rfl
  obtain ⟨rooted, hr, hroot⟩ := rooted_flag (D := D) (a ++ '/' :: name)
  have hd' : D.isDir (start D cwd a) := by
    obtain ⟨c, cs, rfl⟩ := List.exists_cons_of_ne_nil hps.1
    exact walk_dir hw
  rw [opens_clean_iff hT (by simp) hps' hr (hst ▸ hd'), cleanComps_snoc _ _ _ hn, hst]
  have hw' := walk_cleanComps hT (fun h => hst ▸ hroot h) ps [] (empty_stack rooted) (.done _) hw
  constructor
  · intro h
    obtain ⟨k, h1, h2⟩ := walk_append.1 h
    rw [walk_unique h1 hw'] at h2
    exact ((walk_name hn).1 h2).2
  · intro h
    exact walk_append.2 ⟨d, hw', (walk_name hn).2 ⟨hd, h⟩⟩

theorem leads_opens {cwd : α} {p name : Str} {d n : α} (h : Leads D cwd p d name n) : Opens D cwd p n := by
  obtain ⟨ps, h1, h2, h3, h4, h5⟩ := h
  refine ⟨?_, _, h1, walk_append.2 ⟨d, h3, (walk_name h2).2 ⟨h4, h5⟩⟩⟩
  rintro rfl
  have e : splitChar '/' [] = ps ++ [name] := seg.1 h1
  have e' : [] ++ [([] : Str)] = ps ++ [name] := e
  obtain ⟨_, e2⟩ := List.append_inj' e' rfl
  injection e2 with e2 _
  exact h2.1 e2.symm

/-- A path to a file ends with the name of the file. -/
theorem leads_of_file (hT : Tree D) {cwd : α} {p : Str} {n : α} (h : Opens D cwd p n) (hf : ¬ D.isDir n) :
    ∃ d name, Leads D cwd p d name n := by
  obtain ⟨_, ps, hps, hw⟩ := h
  obtain ⟨qs, name, e⟩ := (List.eq_nil_or_concat ps).resolve_left hps.1
  rw [List.concat_eq_append] at e
  subst e
  obtain ⟨d, h1, h2⟩ := walk_append.1 hw
  refine ⟨d, name, qs, hps, ?_⟩
  cases h2 with
  | stay h3 _ h4 => cases h4; exact absurd h3 hf
  | up h3 h4 => cases h4; exact absurd (hT.up_dir _ h3) hf
  | down h3 h4 h5 h6 => cases h6; exact ⟨h4, h1, h3, h5⟩

/-- A cleaned path leads to the same entry. -/
theorem clean_leads (hT : Tree D) {cwd : α} {p name : Str} {d n : α} (h : Leads D cwd p d name n) :
    Leads D cwd (Path.clean p) d name n := by
  obtain ⟨ps, h1, h2, h3, h4, h5⟩ := h
  have hp : p ≠ [] := (leads_opens ⟨ps, h1, h2, h3, h4, h5⟩).1
  have e : splitChar '/' p = ps ++ [name] := seg.1 h1
  obtain ⟨rooted, hr, hroot⟩ := rooted_flag (D := D) p
  have hw := walk_cleanComps hT (fun h => hroot h) ps [] (empty_stack rooted) (.done _) h3
  rcases rooted_or p with ⟨r, rfl⟩ | hrel
  · have := hr.2 ⟨r, rfl⟩
    subst this
    obtain ⟨t, ht, et⟩ := clean_rooted r
    rw [e, cleanComps_snoc _ _ _ h2] at et
    have hs := Path.splitChar_join_clean true ('/' :: r) (by rw [e, cleanComps_snoc _ _ _ h2]; simp)
    rw [e, cleanComps_snoc _ _ _ h2, ← et] at hs
    refine ⟨[] :: Path.cleanComps true [] ps, ?_, h2, ?_, h4, h5⟩
    · rw [ht, seg, seg_head, hs]; rfl
    · rw [ht, start_rooted]
      rw [start_rooted] at hw
      exact .stay hT.root_dir (Or.inl rfl) hw
  · have hroot' : rooted = false := by
      cases rooted with
      | false => rfl
      | true => obtain ⟨r, e⟩ := hr.1 rfl; exact absurd e (hrel r)
    subst hroot'
    have hne : Path.cleanComps false [] (splitChar '/' p) ≠ [] := by rw [e, cleanComps_snoc _ _ _ h2]; simp
    have hs := Path.splitChar_join_clean false p hne
    have hclean : Path.clean p = join g!"/" (Path.cleanComps false [] (splitChar '/' p)) := by
      rw [clean_relative hp hrel, if_neg hne]
    rw [← hclean, e, cleanComps_snoc _ _ _ h2] at hs
    have hrel' : Relative (Path.clean p) := by
      obtain ⟨c, cs, ec⟩ := List.exists_cons_of_ne_nil hne
      have hnorm := Path.cleanComps_normal false (splitChar '/' p) [] (empty_stack _)
      rw [hclean, ec]
      exact relative_join (Path.normal_head_ne false _ hnorm c (by rw [ec]; simp)) (Path.not_slash_cleanComps false p c (by rw [ec]; simp))
    refine ⟨_, seg.2 hs, h2, ?_, h4, h5⟩
    rw [start_relative cwd hrel']
    rw [start_relative cwd hrel] at hw
    exact hw

theorem cutLast_segments {p : Str} {ps : List Str} {name : Str} (h : splitChar '/' p = ps ++ [name]) :
    (ps = [] ∧ p = name ∧ '/' ∉ name) ∨ ∃ a, ps = splitChar '/' a ∧ p = a ++ '/' :: name ∧ '/' ∉ name := by
  have hs := not_mem_splitChar '/' p name (by rw [h]; simp)
  have hj := join_splitChar '/' p
  rw [h] at hj
  by_cases he : ps = []
  · subst he
    left
    exact ⟨rfl, by simpa [join] using hj.symm, hs⟩
  · right
    refine ⟨join g!"/" ps, ?_, ?_, hs⟩
    · exact (splitChar_join '/' ps he fun q hq => not_mem_splitChar '/' p q (by rw [h]; simp [hq])).symm
    · rw [← hj, Path.join_snoc _ _ he]

/-- The directory of a path. -/
theorem dir_opens (hT : Tree D) {cwd : α} {p name : Str} {d n : α} (h : Leads D cwd p d name n) :
    Opens D cwd (Path.dir p) d := by
  obtain ⟨ps, h1, h2, h3, h4, h5⟩ := h
  rcases cutLast_segments (seg.1 h1) with ⟨rfl, rfl, hs⟩ | ⟨a, rfl, rfl, hs⟩
  · rw [Path.dir_single _ hs]
    have hrel : Relative p := by rintro q rfl; simp at hs
    rw [start_relative cwd hrel] at h3
    cases h3
    exact ⟨by simp, [g!"."], seg.2 rfl, by
      rw [start_relative cwd (by intro q e; cases e)]
      exact .stay h4 (Or.inr rfl) (.done _)⟩
  · unfold Path.dir
    rw [cutLast?_append _ _ _ hs]
    refine clean_opens hT ⟨by simp, splitChar '/' a ++ [[]], ?_, ?_⟩
    · rw [seg, seg_concat]; rfl
    · refine walk_append.2 ⟨d, ?_, .stay h4 (Or.inl rfl) (.done _)⟩
      have : start D cwd (a ++ g!"/") = start D cwd (a ++ '/' :: name) := by
        unfold start
        cases a <;> rfl
      rw [this]
      exact h3

/-- The last element of a path. -/
theorem base_leads {cwd : α} {p name : Str} {d n : α} (h : Leads D cwd p d name n) : Path.base p = name := by
  obtain ⟨ps, h1, h2, _⟩ := h
  rw [h1.2.2]
  exact Path.base_join ps name h1.2.1 h2.1

/-- Joining a path of a directory and one that is followed from there. -/
theorem join2_leads (hT : Tree D) {cwd : α} {a r name : Str} {d d' n : α} (ha : Opens D cwd a d) (hr : Relative r)
    (h : Leads D d r d' name n) : Leads D cwd (Path.join2 a r) d' name n := by
  obtain ⟨ha0, as, has, hw⟩ := ha
  obtain ⟨ps, h1, h2, h3, h4, h5⟩ := h
  unfold Path.join2
  rw [if_pos ha0]
  apply clean_leads hT
  rw [start_relative d hr] at h3
  have e : a ++ g!"/" ++ r = a ++ '/' :: r := by simp
  refine ⟨as ++ ps, ?_, h2, ?_, h4, h5⟩
  · rw [e, seg, seg_concat, seg.1 has, seg.1 h1, List.append_assoc]
  · have hst : start D cwd (a ++ g!"/" ++ r) = start D cwd a := by
      unfold start
      cases a with
      | nil => exact absurd rfl ha0
      | cons c a => rfl
    rw [hst]
    exact walk_append.2 ⟨d, hw, h3⟩

/-- Joining a path of a directory and the name of an entry. -/
theorem entry_leads {d n : α} {name : Str} (hd : D.isDir d) (hn : EntryName name) (hs : '/' ∉ name)
    (h : D.child d name = some n) : Leads D d name d name n := by
  refine ⟨[], seg.2 (splitChar_of_not_mem _ _ hs), hn, ?_, hd, h⟩
  rw [start_relative]
  · exact .done _
  · rintro q rfl; simp at hs

theorem name_relative {name : Str} (hs : '/' ∉ name) : Relative name := by
  rintro q rfl
  simp at hs

end Disk
end Osv
