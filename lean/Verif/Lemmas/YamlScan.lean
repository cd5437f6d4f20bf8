import Verif.Spec.YamlDoc
import Verif.Lemmas.TomlLex
import Verif.Lemmas.Str
/-!
# Texts of YAML documents are read
-/
namespace Osv.YamlScan
open Osv Spec

theorem okChar_iff (c : Char) : okChar c = true ↔ YmlChar c := by
  unfold okChar YmlChar
  simp only [Bool.or_eq_true, Bool.and_eq_true, decide_eq_true_eq, List.mem_cons, List.not_mem_nil, or_false, ne_eq, not_or,
    and_assoc]

/-! ### Spaces -/

theorem skip_append {b : Str} (h : YmlSpaces b) (r : Str) : skip (b ++ r) = skip r := by
  induction b with
  | nil => rfl
  | cons c b ih =>
    have := h c (by simp)
    subst this
    exact ih fun c hc => h c (List.mem_cons_of_mem _ hc)

theorem skip_stop {r : Str} (h : r.head? ≠ some ' ') : skip r = r := by
  cases r with
  | nil => rfl
  | cons c r =>
    have : c ≠ ' ' := fun e => h (by rw [e]; rfl)
    simp [skip, this]

theorem skip_spaces {b : Str} (h : YmlSpaces b) : skip b = [] := by
  have := skip_append h []
  rwa [List.append_nil] at this

theorem skip_split (s : Str) : ∃ b, YmlSpaces b ∧ s = b ++ skip s ∧ (skip s).head? ≠ some ' ' := by
  induction s with
  | nil => exact ⟨[], by simp [YmlSpaces], rfl, by simp [skip]⟩
  | cons c s ih =>
    by_cases h : c = ' '
    · subst h
      obtain ⟨b, hb, e, hh⟩ := ih
      have hk : skip (' ' :: s) = skip s := rfl
      refine ⟨' ' :: b, ?_, ?_, ?_⟩
      · intro c hc
        rcases List.mem_cons.1 hc with h | h
        · exact h
        · exact hb c h
      · rw [hk, List.cons_append, ← e]
      · rwa [hk]
    · have hk : skip (c :: s) = c :: s := skip_stop (by simpa using h)
      exact ⟨[], by simp [YmlSpaces], by rw [hk]; rfl, by rw [hk]; simpa using h⟩

theorem spaces_head {b : Str} (h : YmlSpaces b) (hn : b ≠ []) : ∃ b', b = ' ' :: b' ∧ YmlSpaces b' := by
  cases b with
  | nil => exact absurd rfl hn
  | cons c b =>
    have := h c (by simp)
    subst this
    exact ⟨b, rfl, fun c hc => h c (List.mem_cons_of_mem _ hc)⟩

theorem blankEnd_spaces {b : Str} (h : YmlSpaces b) (hn : b ≠ []) (r : Str) : blankEnd (b ++ r) = true := by
  obtain ⟨b', rfl, _⟩ := spaces_head h hn
  rfl

/-! ### Scalars without quotes -/

theorem indicator_iff (c : Char) : indicator c = true ↔ c ∈ g!"-?:,[]{}#&*!|>'\"%@`" := by
  unfold indicator
  exact List.elem_iff

theorem flowMark_iff (c : Char) : flowMark c = true ↔ c ∈ g!",[]{}" := by
  unfold flowMark
  exact List.elem_iff

theorem infix_cons {p t : Str} {c : Char} (h : p <:+: t) : p <:+: c :: t := by
  obtain ⟨a, b, e⟩ := h
  exact ⟨c :: a, b, by rw [← e]; rfl⟩

/-- What is inside a scalar. -/
structure Inner (flow : Bool) (t : Str) : Prop where
  noKey : ¬ g!": " <:+: t
  noComment : ¬ g!" #" <:+: t
  last : t.getLast? ≠ some ':' ∧ t.getLast? ≠ some ' '
  brackets : flow = true → ∀ c ∈ t, c ∉ g!",[]{}"

theorem Inner.tail {flow : Bool} {c : Char} {t : Str} (h : Inner flow (c :: t)) : Inner flow t where
  noKey := fun x => h.noKey (infix_cons x)
  noComment := fun x => h.noComment (infix_cons x)
  last := by
    cases t with
    | nil => simp
    | cons d t => simpa [List.getLast?_cons_cons] using h.last
  brackets := fun hf d hd => h.brackets hf d (List.mem_cons_of_mem _ hd)

/-- A position inside a scalar that is not a space. -/
theorem mark_inner {flow : Bool} {c : Char} {t r : Str} (h : Inner flow (c :: t)) : mark flow (c :: (t ++ r)) = false := by
  have h1 : (flow && flowMark c) = false := by
    cases hf : flow
    · rfl
    · cases hm : flowMark c
      · rfl
      · exact absurd ((flowMark_iff c).1 hm) (h.brackets hf c (by simp))
  unfold mark
  dsimp only
  rw [h1, Bool.or_false, Bool.and_eq_false_iff]
  by_cases hc : c = ':'
  · subst hc
    right
    cases t with
    | nil => exact absurd rfl h.last.1
    | cons d t =>
      by_cases hd : d = ' '
      · subst hd
        exact absurd ⟨[], t, rfl⟩ h.noKey
      · simp [blankEnd, hd]
  · left
    simpa using hc

theorem stops_inner {flow : Bool} {c : Char} {t r : Str} (h : Inner flow (c :: t)) : stops flow (c :: (t ++ r)) = false := by
  unfold stops
  by_cases hc : c = ' '
  · subst hc
    dsimp only
    rw [if_pos rfl]
    obtain ⟨b, hb, e, hh⟩ := skip_split t
    cases hk : skip t with
    | nil =>
      exfalso
      rw [hk, List.append_nil] at e
      have : (' ' :: t).getLast? = some ' ' := by
        rw [List.getLast?_eq_some_getLast (by simp), Option.some.injEq]
        have := List.getLast_mem (l := ' ' :: t) (by simp)
        rcases List.mem_cons.1 this with h | h
        · exact h
        · exact hb _ (e ▸ h)
      exact h.last.2 this
    | cons d u =>
      rw [hk] at e hh
      have hd : d ≠ ' ' := by simpa using hh
      have hs : skip (t ++ r) = d :: (u ++ r) := by
        rw [e, List.append_assoc, skip_append hb]
        exact skip_stop (by simpa using hd)
      have hin : Inner flow (d :: u) := by
        have : ∀ (b : Str) (t : Str), Inner flow (b ++ t) → Inner flow t := by
          intro b
          induction b with
          | nil => exact fun t h => h
          | cons c b ih => exact fun t h => ih t h.tail
        exact this (' ' :: b) (d :: u) (by rw [List.cons_append, ← e]; exact h)
      have hash : d ≠ '#' := by
        rintro rfl
        apply h.noComment
        have : ∃ b', ' ' :: b = b' ++ [' '] := by
          refine ⟨(' ' :: b).dropLast, ?_⟩
          have hl := List.dropLast_concat_getLast (l := ' ' :: b) (by simp)
          have hm := List.getLast_mem (l := ' ' :: b) (by simp)
          have : (' ' :: b).getLast (by simp) = ' ' := by
            rcases List.mem_cons.1 hm with h | h
            · exact h
            · exact hb _ h
          rw [this] at hl
          exact hl.symm
        obtain ⟨b', hb'⟩ := this
        refine ⟨b', u, ?_⟩
        rw [e, ← List.cons_append, hb']
        simp
      rw [hs, mark_inner hin, Bool.or_false]
      simpa using hash
  · dsimp only
    rw [if_neg hc]
    exact mark_inner h

theorem plain_stop {flow : Bool} {r : Str} (h : stops flow r = true) : plain flow r = ([], r) := by
  cases r with
  | nil => rfl
  | cons c r => rw [plain, if_pos h]

theorem plain_of {flow : Bool} {t r : Str} (h : Inner flow t) (hr : stops flow r = true) : plain flow (t ++ r) = (t, r) := by
  induction t with
  | nil => exact plain_stop hr
  | cons c t ih =>
    rw [List.cons_append, plain, if_neg (by rw [stops_inner h]; decide), ih h.tail]

theorem plain_inner {flow : Bool} {t : Str} (h : YmlPlain flow t) : Inner flow t :=
  ⟨h.noKey, h.noComment, h.last, fun hf c hc hm => h.brackets hf c hc (by
    rw [show g!",[]{}?" = g!",[]{}" ++ g!"?" from rfl]
    exact List.mem_append_left _ hm)⟩

theorem plainOk_iff {flow : Bool} {t : Str} : plainOk flow t = true ↔
    ((∃ c r, t = c :: r ∧ c ≠ ' ' ∧ c ∉ g!"-?:,[]{}#&*!|>'\"%@`") ∨ (flow = false ∧ ∃ c r, t = '-' :: c :: r ∧ c ≠ ' ')) ∧
    t.getLast? ≠ some ':' ∧ (flow = true → '?' ∉ t) := by
  unfold plainOk
  rw [Bool.and_eq_true, Bool.and_eq_true, and_assoc]
  refine and_congr ?_ (and_congr (by simp) ?_)
  · cases t with
    | nil => simp [plainStart]
    | cons c r =>
      unfold plainStart
      dsimp only
      by_cases hc : c = '-'
      · subst hc
        rw [if_pos rfl, Bool.and_eq_true, Bool.not_eq_true', Bool.not_eq_true']
        constructor
        · rintro ⟨h1, h2⟩
          cases r with
          | nil => cases h2
          | cons d r => exact .inr ⟨h1, d, r, rfl, by simpa [blankEnd] using h2⟩
        · rintro (⟨c, r, e, _, h⟩ | ⟨h1, d, r, e, h⟩)
          · cases e
            exact absurd (by decide) h
          · cases e
            exact ⟨h1, by simpa [blankEnd] using h⟩
      · rw [if_neg hc, Bool.and_eq_true, Bool.not_eq_true', ← Bool.not_eq_true, indicator_iff]
        constructor
        · rintro ⟨h1, h2⟩
          exact .inl ⟨c, r, rfl, by simpa using h2, h1⟩
        · rintro (⟨c, r, e, h1, h2⟩ | ⟨_, d, r, e, _⟩)
          · cases e
            exact ⟨h2, by simpa using h1⟩
          · cases e
            exact absurd rfl hc
  · cases flow
    · simp
    · simp [List.elem_iff]

theorem plain_ok {flow : Bool} {t : Str} (h : YmlPlain flow t) : plainOk flow t = true :=
  plainOk_iff.2 ⟨h.start, h.last.1, fun hf hm => h.brackets hf _ hm (by decide)⟩

theorem plain_null {flow : Bool} {t : Str} (h : t ∈ ymlNulls) : YmlPlain flow t := by
  have key : ∀ t ∈ ymlNulls, ((t.head?.isSome && !indicator (t.head?.getD ' ') && t.head? != some ' ') &&
      (t.getLast? != some ':' && t.getLast? != some ' ') && t.all fun c => !(g!":# ,[]{}?".elem c)) = true := by decide
  have hk := key t h
  simp only [Bool.and_eq_true, List.all_eq_true, Bool.not_eq_true', bne_iff_ne, ne_eq] at hk
  obtain ⟨⟨⟨⟨h1, h2⟩, h3⟩, h4, h5⟩, h6⟩ := hk
  have hno : ∀ c ∈ t, c ∉ g!":# ,[]{}?" := fun c hc hm => by
    have := h6 c hc
    rw [List.elem_iff.2 hm] at this
    cases this
  refine ⟨.inl ?_, ?_, ?_, ⟨h4, h5⟩, fun _ c hc hm => hno c hc (by
    simp only [List.mem_cons, List.not_mem_nil, or_false] at hm ⊢
    rcases hm with h | h | h | h | h | h <;> simp [h])⟩
  · cases t with
    | nil => cases h1
    | cons c r =>
      refine ⟨c, r, rfl, by simpa using h3, fun hm => ?_⟩
      simp only [List.head?_cons, Option.getD_some] at h2
      rw [(indicator_iff c).2 hm] at h2
      cases h2
  · rintro ⟨a, b, e⟩
    exact hno ':' (by rw [← e]; simp) (by decide)
  · rintro ⟨a, b, e⟩
    exact hno '#' (by rw [← e]; simp) (by decide)

/-! ### Scalars with quotes -/

theorem single_char {c : Char} (h : c ≠ '\'') (t : Str) : single (c :: t) = TomlText.put c (single t) := by
  cases t <;> simp [single, h]

theorem single_quote (t : Str) : single ('\'' :: '\'' :: t) = TomlText.put '\'' (single t) := by
  simp [single]

theorem single_end {r : Str} (hr : r.head? ≠ some '\'') : single ('\'' :: r) = some ([], r) := by
  cases r with
  | nil => simp [single]
  | cons d r =>
    have : d ≠ '\'' := by simpa using hr
    simp [single, this]

theorem single_of {v raw : Str} (h : YmlSingle v raw) {r : Str} (hr : r.head? ≠ some '\'') :
    single (raw ++ '\'' :: r) = some (v, r) := by
  induction h with
  | nil => exact single_end hr
  | char hc _ ih => rw [List.cons_append, single_char hc, ih]; rfl
  | quote _ ih => rw [List.cons_append, List.cons_append, single_quote, ih]; rfl

theorem escape_yml {c : Char} {e : Str} (h : YmlEscape c e) :
    ∃ d e', e = '\\' :: d :: e' ∧ ∀ rest, escape (d :: (e' ++ rest)) = some (c, rest) := by
  cases h with
  | @short e c h =>
    refine ⟨e, [], rfl, fun rest => ?_⟩
    simp only [List.mem_cons, Prod.mk.injEq, List.not_mem_nil, or_false] at h
    rcases h with ⟨rfl, rfl⟩ | ⟨rfl, rfl⟩ | ⟨rfl, rfl⟩ | ⟨rfl, rfl⟩ | ⟨rfl, rfl⟩ | ⟨rfl, rfl⟩ | ⟨rfl, rfl⟩ | ⟨rfl, rfl⟩ | ⟨rfl, rfl⟩ |
      ⟨rfl, rfl⟩ | ⟨rfl, rfl⟩ | ⟨rfl, rfl⟩ | ⟨rfl, rfl⟩ | ⟨rfl, rfl⟩ | ⟨rfl, rfl⟩ | ⟨rfl, rfl⟩ | ⟨rfl, rfl⟩ | ⟨rfl, rfl⟩ <;> rfl
  | @digits e k n ds hk hl hn hs =>
    refine ⟨e, ds, rfl, fun rest => ?_⟩
    have he : escapeDigits e = some k := by
      simp only [List.mem_cons, Prod.mk.injEq, List.not_mem_nil, or_false] at hk
      rcases hk with ⟨rfl, rfl⟩ | ⟨rfl, rfl⟩ | ⟨rfl, rfl⟩ <;> rfl
    have h1 : (ds ++ rest).take k = ds := by rw [← hl]; simp
    have h2 : (ds ++ rest).drop k = rest := by rw [← hl]; simp
    rw [escape, he]
    simp only
    rw [if_pos (by simp; omega), h1, h2, TomlText.scalar_of hn hs]; rfl

theorem double_of {v raw : Str} (h : YmlDouble v raw) : ∀ n r, raw.length < n → double n (raw ++ '"' :: r) = some (v, r) := by
  induction h with
  | nil =>
    intro n r hn
    obtain ⟨n, rfl⟩ : ∃ m, n = m + 1 := ⟨n - 1, by omega⟩
    simp [double]
  | char hq hb _ ih =>
    intro n r hn
    obtain ⟨n, rfl⟩ : ∃ m, n = m + 1 := ⟨n - 1, by omega⟩
    rw [List.cons_append, double, if_neg hq, if_neg hb, ih n r (by simp at hn; omega)]; rfl
  | escape he _ ih =>
    intro n r hn
    obtain ⟨n, rfl⟩ : ∃ m, n = m + 1 := ⟨n - 1, by omega⟩
    obtain ⟨d, e', rfl, hx⟩ := escape_yml he
    rw [List.append_assoc, List.cons_append, double, if_neg (by decide), if_pos rfl, List.cons_append, hx, Option.bind_some,
      ih n r (by simp at hn; omega)]; rfl

theorem isNull_iff (t : Str) : isNull t = true ↔ t ∈ ymlNulls := List.elem_iff

/-- What follows a scalar. -/
structure After (flow : Bool) (r : Str) : Prop where
  stop : stops flow r = true
  quote : r.head? ≠ some '\''

theorem scalar_plain {flow : Bool} {t r : Str} (h : YmlPlain flow t) (hr : After flow r) :
    scalar flow (t ++ r) = some (.scalar t (isNull t), r) := by
  have hs : ∃ c u, t = c :: u ∧ c ≠ '\'' ∧ c ≠ '"' := by
    rcases h.start with ⟨c, u, rfl, _, h⟩ | ⟨_, c, u, rfl, _⟩
    · exact ⟨c, u, rfl, fun e => h (by rw [e]; decide), fun e => h (by rw [e]; decide)⟩
    · exact ⟨'-', _, rfl, by decide, by decide⟩
  obtain ⟨c, u, e, h1, h2⟩ := hs
  have hp := plain_of (plain_inner h) hr.stop
  have hk := plain_ok h
  subst e
  rw [List.cons_append] at hp ⊢
  unfold scalar
  dsimp only
  rw [if_neg h1, if_neg h2, hp, if_pos hk]

theorem scalar_of {flow : Bool} {t r : Str} {n : YNode} (h : YmlScalar flow t n) (hr : After flow r) :
    scalar flow (t ++ r) = some (n, r) := by
  cases h with
  | plain h h0 =>
    rw [scalar_plain h hr, show isNull t = false by
      rw [← Bool.not_eq_true, isNull_iff]; exact h0]
  | null h => rw [scalar_plain (plain_null h) hr, (isNull_iff t).2 h]
  | single h =>
    rw [List.cons_append, List.append_assoc]
    unfold scalar
    dsimp only
    rw [if_pos rfl]
    show (single (_ ++ '\'' :: r)).map _ = _
    rw [single_of h hr.quote]; rfl
  | double h =>
    rw [List.cons_append, List.append_assoc]
    unfold scalar
    dsimp only
    rw [if_neg (by decide), if_pos rfl]
    show (double _ (_ ++ '"' :: r)).map _ = _
    rw [double_of h _ _ (by simp; omega)]; rfl

/-! ### What follows a scalar -/

theorem after_tail {r : Str} (h : YmlTail r) : After false r := by
  obtain ⟨b, c, hb, rfl, hc⟩ := h
  rcases hc with rfl | ⟨hn, t, rfl⟩
  · rw [List.append_nil]
    cases b with
    | nil => exact ⟨rfl, by simp⟩
    | cons x b =>
      obtain ⟨b', e, hb'⟩ := spaces_head hb (by simp)
      rw [e]
      refine ⟨?_, by simp⟩
      unfold stops
      dsimp only
      rw [if_pos rfl, skip_spaces hb']
      rfl
  · obtain ⟨b', rfl, hb'⟩ := spaces_head hb hn
    refine ⟨?_, by simp⟩
    unfold stops
    dsimp only [List.cons_append]
    rw [if_pos rfl, skip_append hb']
    rfl

/-- Spaces and then something that ends a scalar. -/
theorem after_mark {flow : Bool} {b r : Str} (hb : YmlSpaces b) (hm : mark flow r = true) (hs : r.head? ≠ some ' ')
    (hq : r.head? ≠ some '\'') : After flow (b ++ r) := by
  cases b with
  | nil =>
    refine ⟨?_, hq⟩
    cases r with
    | nil => rfl
    | cons c r =>
      have : c ≠ ' ' := by simpa using hs
      unfold stops
      dsimp only [List.nil_append]
      rw [if_neg this]
      exact hm
  | cons x b =>
    obtain ⟨b', e, hb'⟩ := spaces_head hb (by simp)
    rw [e]
    refine ⟨?_, by simp⟩
    unfold stops
    dsimp only [List.cons_append]
    rw [if_pos rfl, skip_append hb', skip_stop hs, hm, Bool.or_true]

/-! ### Keys -/

theorem scalar_head {flow : Bool} {t : Str} {n : YNode} (h : YmlScalar flow t n) : ∃ c u, t = c :: u ∧ c ≠ ' ' ∧
    (c = '-' → flow = false ∧ blankEnd u = false) ∧ c ∉ g!",[]{}#" := by
  have hp : YmlPlain flow t → ∃ c u, t = c :: u ∧ c ≠ ' ' ∧ (c = '-' → flow = false ∧ blankEnd u = false) ∧ c ∉ g!",[]{}#" := by
    intro h
    rcases h.start with ⟨c, u, rfl, h1, h2⟩ | ⟨hf, c, u, rfl, h1⟩
    · refine ⟨c, u, rfl, h1, fun e => absurd (by rw [e]; decide) h2, fun hm => h2 ?_⟩
      simp only [List.mem_cons, List.not_mem_nil, or_false] at hm ⊢
      rcases hm with h | h | h | h | h | h <;> simp [h]
    · exact ⟨'-', _, rfl, by decide, fun _ => ⟨hf, by simp [blankEnd, h1]⟩, by decide⟩
  cases h with
  | plain h _ => exact hp h
  | null h => exact hp (plain_null h)
  | single h => exact ⟨_, _, rfl, by decide, fun e => absurd e (by decide), by decide⟩
  | double h => exact ⟨_, _, rfl, by decide, fun e => absurd e (by decide), by decide⟩

theorem isMerge_false {k : YNode} (h : ∀ b, k ≠ .scalar g!"<<" b) : isMerge k = false := by
  cases k with
  | scalar v b =>
    simp only [isMerge, decide_eq_false_iff_not]
    rintro rfl
    exact h b rfl
  | seq l => rfl
  | map l => rfl

theorem key_of {flow : Bool} {t r : Str} {k : YNode} (h : YmlKey flow t k) (hr : blankEnd r = true) :
    key flow (t ++ ':' :: r) = some (k, r) := by
  obtain ⟨⟨s, b, hs, hb, rfl⟩, hl, hm⟩ := h
  have ha : After flow (b ++ ':' :: r) := after_mark hb (by simp [mark, hr]) (by simp) (by simp)
  unfold key
  rw [List.append_assoc, scalar_of hs ha, Option.bind_some]
  simp only
  rw [skip_append hb, skip_stop (r := ':' :: r) (by simp)]
  simp only
  rw [hr, isMerge_false hm, Bool.true_and, Bool.not_false, Bool.true_and, if_pos]
  simp only [List.length_append, List.length_cons, decide_eq_true_eq] at hl ⊢
  omega

/-! ### Brackets -/

theorem flowItems_of {α : Type} {P : Str → α → Prop} {item : Str → Option (α × Str)} {close : Char}
    (hi : ∀ t x b c r, P t x → YmlSpaces b → c = close ∨ c = ',' → item (t ++ (b ++ c :: r)) = some (x, b ++ c :: r))
    (hh : ∀ t x, P t x → t.head? ≠ some ' ' ∧ t ≠ []) (hc : close ≠ ' ' ∧ close ≠ ',') {t : Str} {l : List α} (h : YmlItems P t l) :
    ∀ n r, t.length < n → flowItems item close n (t ++ close :: r) = some (l, r) := by
  have hsk : ∀ (a t : Str) (x : α) (r : Str), YmlSpaces a → P t x → skip (a ++ (t ++ r)) = t ++ r := by
    intro a t x r ha hp
    rw [skip_append ha]
    apply skip_stop
    have := hh t x hp
    cases t with
    | nil => exact absurd rfl this.2
    | cons c t => simpa using this.1
  induction h with
  | @one a t b x ha hp hb =>
    intro n r hn
    obtain ⟨n, rfl⟩ : ∃ m, n = m + 1 := ⟨n - 1, by omega⟩
    rw [flowItems, List.append_assoc, List.append_assoc, hsk a t x _ ha hp, hi t x b close r hp hb (.inl rfl), Option.bind_some]
    simp only
    rw [skip_append hb, skip_stop (r := close :: r) (by simpa using hc.1)]
    simp
  | @more a t b u x xs ha hp hb _ ih =>
    intro n r hn
    obtain ⟨n, rfl⟩ : ∃ m, n = m + 1 := ⟨n - 1, by omega⟩
    rw [flowItems]
    have e : a ++ (t ++ (b ++ ',' :: u)) ++ close :: r = a ++ (t ++ (b ++ ',' :: (u ++ close :: r))) := by simp
    rw [e, hsk a t x _ ha hp, hi t x b ',' _ hp hb (.inr rfl), Option.bind_some]
    simp only
    rw [skip_append hb, skip_stop (r := ',' :: (u ++ close :: r)) (by simp)]
    simp only
    rw [if_neg (Ne.symm hc.2), ih n r (by simp at hn; omega)]
    simp

theorem items_head {α : Type} {P : Str → α → Prop} {close : Char}
    (hh : ∀ t x, P t x → t.head? ≠ some ' ' ∧ t ≠ [] ∧ t.head? ≠ some close) {t : Str} {l : List α} (h : YmlItems P t l) (r : Str) :
    ∃ c u, skip (t ++ r) = c :: u ∧ c ≠ close := by
  have key : ∀ (a t : Str) (x : α) (r : Str), YmlSpaces a → P t x → ∃ c u, skip (a ++ (t ++ r)) = c :: u ∧ c ≠ close := by
    intro a t x r ha hp
    obtain ⟨h1, h2, h3⟩ := hh t x hp
    cases t with
    | nil => exact absurd rfl h2
    | cons c t =>
      refine ⟨c, t ++ r, ?_, by simpa using h3⟩
      rw [skip_append ha]
      exact skip_stop (by simpa using h1)
  cases h with
  | @one a t b x ha hp hb =>
    have := key a t x (b ++ r) ha hp
    simpa using this
  | @more a t b u x xs ha hp hb _ =>
    have := key a t x (b ++ ',' :: u ++ r) ha hp
    simpa using this

theorem flowOf_of {α : Type} {P : Str → α → Prop} {item : Str → Option (α × Str)} {close : Char}
    (hi : ∀ t x b c r, P t x → YmlSpaces b → c = close ∨ c = ',' → item (t ++ (b ++ c :: r)) = some (x, b ++ c :: r))
    (hh : ∀ t x, P t x → t.head? ≠ some ' ' ∧ t ≠ [] ∧ t.head? ≠ some close) (hc : close ≠ ' ' ∧ close ≠ ',') {t : Str} {l : List α}
    (h : YmlItems P t l) (r : Str) : flowOf item close (t ++ close :: r) = some (l, r) := by
  obtain ⟨c, u, e, hne⟩ := items_head hh h (close :: r)
  unfold flowOf
  rw [e]
  dsimp only
  rw [if_neg hne]
  exact flowItems_of hi (fun t x hp => ⟨(hh t x hp).1, (hh t x hp).2.1⟩) hc h _ _ (by simp)

theorem flowOf_empty {α : Type} (item : Str → Option (α × Str)) {close : Char} (hc : close ≠ ' ') {b : Str} (hb : YmlSpaces b) (r : Str) :
    flowOf item close (b ++ close :: r) = some ([], r) := by
  unfold flowOf
  rw [skip_append hb, skip_stop (r := close :: r) (by simpa using hc)]
  simp

theorem after_flow {b r : Str} {c : Char} (hb : YmlSpaces b) (hc : c ∈ g!",[]{}") : After true (b ++ c :: r) := by
  refine after_mark hb ?_ ?_ ?_
  · simp [mark, (flowMark_iff c).2 hc]
  · rintro e
    have : c = ' ' := by simpa using e
    rw [this] at hc
    exact absurd hc (by decide)
  · rintro e
    have : c = '\'' := by simpa using e
    rw [this] at hc
    exact absurd hc (by decide)

theorem pair_of {t : Str} {p : YNode × YNode} (h : YmlPair t p) {r : Str} (hr : After true r) : pair (t ++ r) = some (p, r) := by
  obtain ⟨k, b, v, hk, hn, hb, hv, rfl⟩ := h
  have e : k ++ ':' :: (b ++ v) ++ r = k ++ ':' :: (b ++ (v ++ r)) := by simp
  obtain ⟨c, u, hcu, hc, _⟩ := scalar_head hv
  unfold pair
  rw [e, key_of hk (blankEnd_spaces hb hn _), Option.bind_some]
  simp only
  rw [skip_append hb, skip_stop (r := v ++ r) (by rw [hcu]; simpa using hc), scalar_of hv hr]
  rfl

theorem pair_head {t : Str} {p : YNode × YNode} (h : YmlPair t p) : t.head? ≠ some ' ' ∧ t ≠ [] ∧ t.head? ≠ some '}' := by
  obtain ⟨k, b, v, ⟨⟨s, b', hs, _, rfl⟩, _, _⟩, _, _, _, rfl⟩ := h
  obtain ⟨c, u, rfl, h1, _, h2⟩ := scalar_head hs
  refine ⟨by simpa using h1, by simp, ?_⟩
  rintro e
  have : c = '}' := by simpa using e
  exact h2 (by rw [this]; decide)

theorem inline_of {t r : Str} {n : YNode} (h : YmlInline t n) (hr : After false r) : inline (t ++ r) = some (n, r) := by
  cases h with
  | scalar h =>
    obtain ⟨c, u, e, _, _, hc⟩ := scalar_head h
    have hs := scalar_of h hr
    subst e
    unfold inline
    dsimp only [List.cons_append] at hs ⊢
    rw [if_neg (fun e => hc (by rw [e]; decide)), if_neg (fun e => hc (by rw [e]; decide))]
    exact hs
  | emptySeq hb =>
    unfold inline
    dsimp only [List.cons_append]
    rw [if_pos rfl, List.append_assoc]
    exact congrArg _ (flowOf_empty _ (by decide) hb r)
  | seq h =>
    unfold inline
    dsimp only [List.cons_append]
    rw [if_pos rfl, List.append_assoc]
    refine congrArg (Option.map _) (flowOf_of (P := YmlScalar true) ?_ ?_ (by decide) h r)
    · intro t x b c r hp hb hc
      exact scalar_of hp (after_flow hb (by rcases hc with rfl | rfl <;> decide))
    · intro t x hp
      obtain ⟨c, u, rfl, h1, _, h2⟩ := scalar_head hp
      refine ⟨by simpa using h1, by simp, ?_⟩
      rintro e
      have : c = ']' := by simpa using e
      exact h2 (by rw [this]; decide)
  | emptyMap hb =>
    unfold inline
    dsimp only [List.cons_append]
    rw [if_neg (by decide), if_pos rfl, List.append_assoc]
    exact congrArg _ (flowOf_empty _ (by decide) hb r)
  | map h =>
    unfold inline
    dsimp only [List.cons_append]
    rw [if_neg (by decide), if_pos rfl, List.append_assoc]
    refine congrArg (Option.map _) (flowOf_of (P := YmlPair) ?_ ?_ (by decide) h r)
    · intro t x b c r hp hb hc
      exact pair_of hp (after_flow hb (by rcases hc with rfl | rfl <;> decide))
    · exact fun t x hp => pair_head hp

end Osv.YamlScan
