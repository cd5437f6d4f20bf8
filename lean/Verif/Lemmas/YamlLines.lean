import Verif.Lemmas.YamlScan
/-!
# Lines and indentation of YAML documents are read
-/
namespace Osv.YamlScan
open Osv Spec

/-! ### Lines -/

theorem tail_iff {r : Str} : tail r = true ↔ YmlTail r := by
  constructor
  · intro h
    cases r with
    | nil => exact ⟨[], [], by simp [YmlSpaces], rfl, .inl rfl⟩
    | cons c r =>
      unfold tail at h
      dsimp only at h
      rw [Bool.and_eq_true, Bool.or_eq_true] at h
      obtain ⟨h1, h2⟩ := h
      have : c = ' ' := by simpa using h1
      subst this
      obtain ⟨b, hb, e, _⟩ := skip_split r
      refine ⟨' ' :: b, skip r, ?_, by rw [List.cons_append, ← e], ?_⟩
      · intro c hc
        rcases List.mem_cons.1 hc with h | h
        · exact h
        · exact hb c h
      · rcases h2 with h | h
        · exact .inl (by simpa using h)
        · right
          refine ⟨by simp, ?_⟩
          cases hk : skip r with
          | nil => rw [hk] at h; cases h
          | cons d t =>
            rw [hk] at h
            have : d = '#' := by simpa using h
            exact ⟨t, by rw [this]⟩
  · rintro ⟨b, c, hb, rfl, hc⟩
    rcases hc with rfl | ⟨hn, t, rfl⟩
    · rw [List.append_nil]
      cases b with
      | nil => rfl
      | cons x b =>
        obtain ⟨b', e, hb'⟩ := spaces_head hb (by simp)
        rw [e]
        unfold tail
        dsimp only
        rw [skip_spaces hb']
        rfl
    · obtain ⟨b', rfl, hb'⟩ := spaces_head hb hn
      unfold tail
      dsimp only [List.cons_append]
      rw [skip_append hb']
      rfl

theorem tail_blank {r : Str} (h : YmlTail r) : blankEnd r = true := by
  rw [← tail_iff] at h
  cases r with
  | nil => rfl
  | cons c r =>
    unfold tail at h
    dsimp only at h
    rw [Bool.and_eq_true] at h
    exact h.1

/-- Spaces, and then something that is not a comment. -/
theorem tail_false {b r : Str} (hb : YmlSpaces b) {c : Char} {u : Str} (h : r = c :: u) (hc : c ≠ ' ' ∧ c ≠ '#') : tail (b ++ r) = false := by
  subst h
  rw [← Bool.not_eq_true, tail_iff]
  rintro ⟨b', c', hb', e, hc'⟩
  have h1 := skip_append hb (c :: u)
  rw [e, skip_append hb', skip_stop (r := c :: u) (by simpa using hc.1)] at h1
  rcases hc' with rfl | ⟨_, t, rfl⟩
  · cases h1
  · rw [skip_stop (by simp)] at h1
    cases h1
    exact hc.2 rfl

theorem inline_head {t : Str} {n : YNode} (h : YmlInline t n) : ∃ c u, t = c :: u ∧ c ≠ ' ' ∧ c ≠ '#' ∧ (c = '-' → blankEnd u = false) := by
  cases h with
  | scalar h =>
    obtain ⟨c, u, rfl, h1, h2, h3⟩ := scalar_head h
    exact ⟨c, u, rfl, h1, fun e => h3 (by rw [e]; decide), fun e => (h2 e).2⟩
  | emptySeq => exact ⟨_, _, rfl, by decide, by decide, fun e => absurd e (by decide)⟩
  | seq => exact ⟨_, _, rfl, by decide, by decide, fun e => absurd e (by decide)⟩
  | emptyMap => exact ⟨_, _, rfl, by decide, by decide, fun e => absurd e (by decide)⟩
  | map => exact ⟨_, _, rfl, by decide, by decide, fun e => absurd e (by decide)⟩

theorem lastOn_of {v r : Str} {n : YNode} (h : YmlInline v n) (hr : YmlTail r) : lastOn (v ++ r) = some n := by
  rw [lastOn, inline_of h (after_tail hr), Option.bind_some]
  exact if_pos (tail_iff.2 hr)

theorem key_head {flow : Bool} {t : Str} {k : YNode} (h : YmlKey flow t k) : ∃ c u, t = c :: u ∧ c ≠ ' ' ∧ c ≠ '#' ∧ c ∉ g!"[]{}" ∧
    (c = '-' → ∀ r, blankEnd (u ++ ':' :: r) = false) := by
  obtain ⟨⟨s, b, hs, hb, rfl⟩, _, _⟩ := h
  obtain ⟨c, u, rfl, h1, h2, h3⟩ := scalar_head hs
  refine ⟨c, u ++ b, rfl, h1, fun e => h3 (by rw [e]; decide), fun hm => h3 ?_, ?_⟩
  · simp only [List.mem_cons, List.not_mem_nil, or_false] at hm ⊢
    rcases hm with h | h | h | h <;> simp [h]
  · intro e r
    have := (h2 e).2
    cases u with
    | nil => cases this
    | cons d u => exact this

theorem body_head {i : Nat} {t : Str} {toks : List Tok} (h : YmlBody i t toks) : ∃ c u, t = c :: u ∧ c ≠ ' ' ∧ c ≠ '#' := by
  cases h with
  | dash => exact ⟨_, _, rfl, by decide, by decide⟩
  | dashValue => exact ⟨_, _, rfl, by decide, by decide⟩
  | dashMore => exact ⟨_, _, rfl, by decide, by decide⟩
  | key hk =>
    obtain ⟨c, u, rfl, h1, h2, _⟩ := key_head hk
    exact ⟨c, _, rfl, h1, h2⟩
  | keyValue hk =>
    obtain ⟨c, u, rfl, h1, h2, _⟩ := key_head hk
    exact ⟨c, _, rfl, h1, h2⟩

theorem lastOn_dash {r : Str} (hr : blankEnd r = true) : lastOn ('-' :: r) = none := by
  have : scalar false ('-' :: r) = none := by
    unfold scalar
    dsimp only
    rw [if_neg (by decide), if_neg (by decide), if_neg]
    rw [Bool.not_eq_true]
    unfold plainOk
    suffices h : plainStart false (plain false ('-' :: r)).1 = false by rw [h]; rfl
    rw [plain]
    split
    · rfl
    · unfold plainStart
      dsimp only
      rw [if_pos rfl]
      cases r with
      | nil => rfl
      | cons c r =>
        have : c = ' ' := by simpa [blankEnd] using hr
        subst this
        rw [plain]
        split <;> rfl
  unfold lastOn inline
  dsimp only
  rw [if_neg (by decide), if_neg (by decide), this]
  rfl

theorem lastOn_key {k r : Str} {n : YNode} (h : YmlKey false k n) (hr : blankEnd r = true) : lastOn (k ++ ':' :: r) = none := by
  obtain ⟨c, u, e, _, _, hc, _⟩ := key_head h
  obtain ⟨⟨s, b, hs, hb, rfl⟩, hl, hm⟩ := h
  have ha : After false (b ++ ':' :: r) := after_mark hb (by simp [mark, hr]) (by simp) (by simp)
  have hsc := scalar_of hs ha
  have ht : tail (b ++ ':' :: r) = false := tail_false hb rfl (by decide)
  have hi : inline (s ++ (b ++ ':' :: r)) = some (n, b ++ ':' :: r) := by
    rw [← List.append_assoc, e] at hsc ⊢
    unfold inline
    dsimp only [List.cons_append] at hsc ⊢
    rw [if_neg (fun e => hc (by rw [e]; decide)), if_neg (fun e => hc (by rw [e]; decide))]
    exact hsc
  rw [List.append_assoc, lastOn, hi, Option.bind_some]
  exact if_neg (by rw [ht]; decide)

theorem lastOn_body {i : Nat} {t : Str} {toks : List Tok} (h : YmlBody i t toks) : lastOn t = none := by
  cases h with
  | dash hr => exact lastOn_dash (tail_blank hr)
  | dashValue hn hb => exact lastOn_dash (blankEnd_spaces hb hn _)
  | dashMore hn hb => exact lastOn_dash (blankEnd_spaces hb hn _)
  | key hk hr => exact lastOn_key hk (tail_blank hr)
  | keyValue hk hn hb => exact lastOn_key hk (blankEnd_spaces hb hn _)

theorem body_of {i : Nat} {t : Str} {toks : List Tok} (h : YmlBody i t toks) : ∀ n, t.length ≤ n → body n i t = some toks := by
  have hkey : ∀ (i n : Nat) (k r : Str) (w : YNode) (toks : List Tok), YmlKey false k w → (k ++ ':' :: r).length ≤ n →
      keyLine i (k ++ ':' :: r) = some toks → body n i (k ++ ':' :: r) = some toks := by
    intro i n k r w toks hk hl he
    obtain ⟨c, u, rfl, _, _, _, hd⟩ := key_head hk
    obtain ⟨n, rfl⟩ : ∃ m, n = m + 1 := ⟨n - 1, by simp at hl; omega⟩
    rw [List.cons_append] at he ⊢
    rw [body]
    rw [if_neg]
    · exact he
    · rintro ⟨rfl, h⟩
      rw [hd rfl] at h
      cases h
  induction h with
  | @dash i r hr =>
    intro n hn
    obtain ⟨n, rfl⟩ : ∃ m, n = m + 1 := ⟨n - 1, by simp at hn; omega⟩
    rw [body]
    rw [if_pos ⟨rfl, tail_blank hr⟩, if_pos (tail_iff.2 hr)]
  | @dashValue i b v r w hne hb hv hr =>
    intro n hn
    obtain ⟨n, rfl⟩ : ∃ m, n = m + 1 := ⟨n - 1, by simp at hn; omega⟩
    obtain ⟨c, u, e, h1, h2, _⟩ := inline_head hv
    rw [body]
    rw [if_pos ⟨rfl, blankEnd_spaces hb hne _⟩, tail_false hb (c := c) (u := u ++ r) (by rw [e]; rfl) ⟨h1, h2⟩,
      if_neg (by decide), skip_append hb, skip_stop (r := v ++ r) (by rw [e]; simpa using h1), lastOn_of hv hr]
  | @dashMore i b t toks hne hb ht ih =>
    intro n hn
    obtain ⟨n, rfl⟩ : ∃ m, n = m + 1 := ⟨n - 1, by simp at hn; omega⟩
    obtain ⟨c, u, e, h1, h2⟩ := body_head ht
    rw [body]
    rw [if_pos ⟨rfl, blankEnd_spaces hb hne _⟩, tail_false hb (c := c) (u := u) e ⟨h1, h2⟩,
      if_neg (by decide), skip_append hb, skip_stop (r := t) (by rw [e]; simpa using h1), lastOn_body ht]
    dsimp only
    have hi : i + 1 + ((b ++ t).length - t.length) = i + 1 + b.length := by simp
    rw [hi, ih n (by simp at hn; omega)]
    rfl
  | @key i k r w hk hr =>
    intro n hn
    refine hkey i n k r w _ hk hn ?_
    rw [keyLine, key_of hk (tail_blank hr), Option.bind_some]
    exact if_pos (tail_iff.2 hr)
  | @keyValue i k b v r w x hk hne hb hv hr =>
    intro n hn
    refine hkey i n k _ w _ hk hn ?_
    obtain ⟨c, u, e, h1, h2, _⟩ := inline_head hv
    rw [keyLine, key_of hk (blankEnd_spaces hb hne _), Option.bind_some]
    dsimp only
    rw [tail_false hb (c := c) (u := u ++ r) (by rw [e]; rfl) ⟨h1, h2⟩,
      if_neg (by decide), skip_append hb, skip_stop (r := v ++ r) (by rw [e]; simpa using h1), lastOn_of hv hr]
    rfl

theorem docMark_iff {l : Str} : docMark l = false ↔ ¬ g!"---" <+: l ∧ ¬ g!"..." <+: l := by
  unfold docMark
  rw [Bool.or_eq_false_iff, ← Bool.not_eq_true, ← Bool.not_eq_true, List.isPrefixOf_iff_prefix, List.isPrefixOf_iff_prefix]

theorem allOk_iff {l : Str} : l.all okChar = true ↔ ∀ c ∈ l, YmlChar c := by
  rw [List.all_eq_true]
  exact forall_congr' fun c => imp_congr_right fun _ => okChar_iff c

theorem line_of {l : Str} {toks : List Tok} (h : YmlFullLine l toks) : line l = some toks := by
  obtain ⟨h, hc, hd⟩ := h
  unfold line
  rw [allOk_iff.2 hc, docMark_iff.2 hd, if_neg (by decide)]
  cases h with
  | blank hb => rw [skip_spaces hb]
  | comment hb =>
    rw [skip_append hb, skip_stop (by simp)]
    simp
  | @body b t toks hb ht =>
    obtain ⟨c, u, e, h1, h2⟩ := body_head ht
    rw [skip_append hb, skip_stop (r := t) (by rw [e]; simpa using h1)]
    subst e
    dsimp only
    rw [if_neg h2]
    have : (b ++ c :: u).length - (u.length + 1) = b.length := by simp
    rw [this]
    exact body_of ht _ (by simp)

theorem noBreak {l : Str} (h : ∀ c ∈ l, YmlChar c) : '\n' ∉ l := by
  intro hm
  rcases h _ hm with h | h
  · exact absurd h (by decide)
  · exact absurd h (by decide)

theorem lines_of {s : Str} {toks : List Tok} (h : YmlLines s toks) : lines (Str.splitChar '\n' s) = some toks := by
  induction h with
  | last h =>
    rw [Str.splitChar_of_not_mem _ _ (noBreak h.2.1), lines, line_of h, Option.bind_some, lines]
    simp
  | line h _ ih =>
    rw [Str.splitChar_append _ _ _ (noBreak h.2.1), lines, line_of h, Option.bind_some, ih]
    rfl

/-! ### Indentation -/

theorem build_of {m : Bool} {es : List (Option YNode × YNode)} {n : YNode} (h : YmlTree m es n) : build m es = n := by
  cases h with
  | map es => simp [build, Function.comp_def]
  | seq l => simp [build, Function.comp_def]

/-- The entries in a column end here. -/
def Stop (i : Nat) (m : Bool) (rest : List Tok) : Prop :=
  ∀ u us, rest = u :: us → u.indent < i ∨ (u.indent = i ∧ m = false ∧ u.key.isSome = true)

theorem block_head {i : Nat} {m : Bool} {ts : List Tok} {es : List (Option YNode × YNode)} (h : YmlBlock i m ts es) {u : Tok}
    {us : List Tok} (e : ts = u :: us) : u.indent = i ∧ u.key.isSome = m := by
  cases h with
  | nil => cases e
  | inline hk _ => cases e; exact ⟨rfl, hk⟩
  | null hk _ => cases e; exact ⟨rfl, hk⟩
  | nested hk _ _ _ _ _ => cases e; exact ⟨rfl, hk⟩

theorem stop_not_nests {i : Nat} {m : Bool} {u : Tok} (h : u.indent < i ∨ (u.indent = i ∧ m = false ∧ u.key.isSome = true)) :
    nests i m u = false := by
  unfold nests
  rcases h with h | ⟨h, rfl, _⟩
  · simp only [Bool.or_eq_false_iff, decide_eq_false_iff_not, Bool.and_eq_false_iff, beq_eq_false_iff_ne]
    exact ⟨by omega, .inl (.inr (by omega))⟩
  · simp [h]

theorem next_not_nests {i : Nat} {m : Bool} {u : Tok} (h : u.indent = i ∧ u.key.isSome = m) : nests i m u = false := by
  unfold nests
  obtain ⟨h, rfl⟩ := h
  cases hk : u.key <;> simp [h]

theorem entries_stop {i : Nat} {m : Bool} {rest : List Tok} (h : Stop i m rest) (n : Nat) : entries (n + 1) i m rest = some ([], rest) := by
  cases rest with
  | nil => rfl
  | cons u us =>
    rw [entries, if_neg]
    rintro ⟨h1, h2⟩
    rcases h u us rfl with h | ⟨_, h3, h4⟩
    · omega
    · rw [h3, h4] at h2
      cases h2

theorem entries_of {i : Nat} {m : Bool} {ts : List Tok} {es : List (Option YNode × YNode)} (h : YmlBlock i m ts es) :
    ∀ n rest, Stop i m rest → ts.length < n → entries n i m (ts ++ rest) = some (es, rest) := by
  induction h with
  | nil =>
    intro n rest hs hn
    obtain ⟨n, rfl⟩ : ∃ m, n = m + 1 := ⟨n - 1, by simp at hn; omega⟩
    exact entries_stop hs n
  | @inline i m k v ts es hk _ ih =>
    intro n rest hs hn
    obtain ⟨n, rfl⟩ : ∃ m, n = m + 1 := ⟨n - 1, by simp at hn; omega⟩
    rw [List.cons_append, entries]
    rw [if_pos ⟨rfl, hk⟩, valueOf, Option.bind_some, ih n rest hs (by simp at hn; omega)]
    rfl
  | @null i m k ts es hk hb ih =>
    intro n rest hs hn
    obtain ⟨n, rfl⟩ : ∃ m, n = m + 1 := ⟨n - 1, by simp at hn; omega⟩
    have ih := ih n rest hs (by simp at hn; omega)
    rw [List.cons_append, entries, if_pos ⟨rfl, hk⟩]
    cases hr : ts ++ rest with
    | nil =>
      rw [hr] at ih
      rw [valueOf, Option.bind_some, ih]
      rfl
    | cons u us =>
      have hn : nests i m u = false := by
        cases ts with
        | nil =>
          rw [List.nil_append] at hr
          exact stop_not_nests (hs u us hr)
        | cons t ts =>
          cases hr
          exact next_not_nests (block_head hb rfl)
      rw [hr] at ih
      rw [valueOf, hn, if_neg (by decide), Option.bind_some, ih]
      rfl
  | @nested i j m m' k v ts ts' es es' hk hj hne hb' ht hb ih' ih =>
    intro n rest hs hn
    obtain ⟨n, rfl⟩ : ∃ m, n = m + 1 := ⟨n - 1, by simp at hn; omega⟩
    have hs' : Stop j m' (ts ++ rest) := by
      intro u us e
      cases ts with
      | nil =>
        rw [List.nil_append] at e
        rcases hs u us e with h | ⟨h, h2, h3⟩
        · left
          rcases hj with h' | ⟨rfl, _⟩ <;> omega
        · left
          rcases hj with h' | ⟨rfl, h', _⟩
          · omega
          · rw [h'] at h2; cases h2
      | cons t ts =>
        cases e
        obtain ⟨h1, h2⟩ := block_head hb rfl
        rcases hj with h' | ⟨rfl, h', h''⟩
        · left; omega
        · right; exact ⟨h1, h'', by rw [h2, h']⟩
    have ih' := ih' n (ts ++ rest) hs' (by simp at hn; omega)
    have ih := ih n rest hs (by simp at hn; omega)
    rw [List.cons_append, List.append_assoc, entries, if_pos ⟨rfl, hk⟩]
    cases ts' with
    | nil => exact absurd rfl hne
    | cons u us =>
      obtain ⟨h1, h2⟩ := block_head hb' rfl
      have hnest : nests i m u = true := by
        unfold nests
        rcases hj with h' | ⟨rfl, rfl, rfl⟩
        · simp only [Bool.or_eq_true, decide_eq_true_eq]
          left; omega
        · simp only [h1, Bool.or_eq_true, Bool.and_eq_true]
          right
          cases hu : u.key with
          | none => simp
          | some k => rw [hu] at h2; cases h2
      rw [List.cons_append] at ih' ⊢
      rw [valueOf, hnest, if_pos rfl, h1, h2, ih', Option.map_some, Option.bind_some]
      dsimp only
      rw [ih, Option.map_some, build_of ht]

theorem document_of {toks : List Tok} {i : Nat} {m : Bool} {es : List (Option YNode × YNode)} {n : YNode} (hne : toks ≠ [])
    (h : YmlBlock i m toks es) (ht : YmlTree m es n) : document toks = some (some n) := by
  cases toks with
  | nil => exact absurd rfl hne
  | cons t ts =>
    obtain ⟨h1, h2⟩ := block_head h rfl
    have := entries_of h (ts.length + 2) [] (fun u us e => by cases e) (by simp)
    rw [List.append_nil] at this
    unfold document
    dsimp only
    rw [h1, h2, this, Option.bind_some]
    simp [build_of ht]

theorem scan_of {s : Str} {r : Option YNode} (h : YmlDoc s r) : scan s = some r := by
  cases h with
  | none h =>
    rw [scan, lines_of h]
    rfl
  | some h hne hb ht =>
    rw [scan, lines_of h, Option.bind_some]
    exact document_of hne hb ht

end Osv.YamlScan
