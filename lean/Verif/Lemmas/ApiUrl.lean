import Verif.Model.ApiUrl
import Verif.Lemmas.RequestURI
/-! # The URLs of requests -/
namespace Osv.Url
open Osv Str Spec

/-! ### Reading -/

theorem scheme_chars : ∀ c ∈ g!"abcdefghijklmnopqrstuvwxyz0123456789+-.",
    (isLetter c = true ∨ (isDigit c || c == '+' || c == '-' || c == '.') = true) ∧ c.toLower = c ∧ 32 ≤ c.toNat ∧ c.toNat ≠ 127 := by
  decide +kernel

theorem getScheme_rest (raw acc s rest : Str) (ha : acc ≠ []) (h : ∀ c ∈ s, c ∈ g!"abcdefghijklmnopqrstuvwxyz0123456789+-.") :
    getScheme raw acc (s ++ ':' :: rest) = some (acc ++ s, rest) := by
  induction s generalizing acc with
  | nil =>
    have : acc.isEmpty = false := by simpa using ha
    simp [getScheme, isLetter, isDigit, this]
  | cons c s ih =>
    have hc := (scheme_chars c (h c (by simp))).1
    have ih := ih (acc ++ [c]) (by simp) (fun d hd => h d (by simp [hd]))
    have he : acc.isEmpty = false := by simpa using ha
    rw [List.cons_append, getScheme, ih]
    by_cases hl : isLetter c = true
    · rw [if_pos hl]; simp
    · rw [if_neg hl, if_pos (hc.resolve_left hl), he]; simp

theorem getScheme_text {s : Str} (h : SchemeText s) (raw rest : Str) : getScheme raw [] (s ++ ':' :: rest) = some (s, rest) := by
  obtain ⟨c, t, rfl, hc, ht⟩ := h
  have hl : isLetter c = true := by
    have : ∀ c ∈ g!"abcdefghijklmnopqrstuvwxyz", isLetter c = true := by decide +kernel
    exact this c hc
  rw [List.cons_append, getScheme, if_pos hl, getScheme_rest _ _ _ _ (by simp) ht]
  rfl

theorem scheme_lower {s : Str} (h : SchemeText s) : s ≠ [] ∧ Str.toLower s = s ∧ ∀ c ∈ s, 32 ≤ c.toNat ∧ c.toNat ≠ 127 := by
  obtain ⟨c, t, rfl, hc, ht⟩ := h
  have hm : ∀ d ∈ c :: t, d ∈ g!"abcdefghijklmnopqrstuvwxyz0123456789+-." := by
    intro d hd
    rcases List.mem_cons.1 hd with rfl | hd
    · have : ∀ c ∈ g!"abcdefghijklmnopqrstuvwxyz", c ∈ g!"abcdefghijklmnopqrstuvwxyz0123456789+-." := by decide +kernel
      exact this _ hc
    · exact ht d hd
  refine ⟨by simp, ?_, fun d hd => (scheme_chars d (hm d hd)).2.2⟩
  unfold Str.toLower
  conv => rhs; rw [← List.map_id (c :: t)]
  exact List.map_congr_left fun d hd => (scheme_chars d (hm d hd)).2.1

theorem host_chars : ∀ c ∈ g!"abcdefghijklmnopqrstuvwxyzABCDEFGHIJKLMNOPQRSTUVWXYZ0123456789-._~:",
    shouldEscape .host c = false ∧ c ≠ '%' ∧ c ≠ '/' ∧ c ≠ '@' ∧ c ≠ '?' ∧ c ≠ '[' ∧ 32 ≤ c.toNat ∧ c.toNat ≠ 127 := by
  decide +kernel

theorem host_mem {s : Str} (h : HostText s) : s ≠ [] ∧ ∀ c ∈ s, c ∈ g!"abcdefghijklmnopqrstuvwxyzABCDEFGHIJKLMNOPQRSTUVWXYZ0123456789-._~:" := by
  obtain ⟨name, port, h0, h1, h2, h3⟩ := h
  have a1 : ∀ c ∈ g!"abcdefghijklmnopqrstuvwxyzABCDEFGHIJKLMNOPQRSTUVWXYZ0123456789-._~",
      c ∈ g!"abcdefghijklmnopqrstuvwxyzABCDEFGHIJKLMNOPQRSTUVWXYZ0123456789-._~:" := by decide +kernel
  have a2 : ∀ c ∈ g!"0123456789",
      c ∈ g!"abcdefghijklmnopqrstuvwxyzABCDEFGHIJKLMNOPQRSTUVWXYZ0123456789-._~:" := by decide +kernel
  rcases h3 with rfl | rfl
  · exact ⟨h0, fun c hc => a1 c (h1 c hc)⟩
  · refine ⟨by simp, fun c hc => ?_⟩
    rcases List.mem_append.1 hc with hc | hc
    · exact a1 c (h1 c hc)
    · rcases List.mem_cons.1 hc with rfl | hc
      · simp
      · exact a2 c (h2 c hc)

theorem unescape_host {s : Str} (h : ∀ c ∈ s, c ≠ '%' ∧ shouldEscape .host c = false) : unescapeBytes .host s = some (bytesOf s) := by
  induction s with
  | nil => rfl
  | cons c s ih =>
    have hc := h c (by simp)
    rw [unescapeBytes]
    · rw [if_neg hc.1, if_neg (by simp [hc.2]), ih fun d hd => h d (by simp [hd])]
      rfl
    · rintro _ _ _ rfl _; exact hc.1 rfl

theorem parseHost_text {s : Str} (h : HostText s) : parseHost s = some s := by
  obtain ⟨hne, hm⟩ := host_mem h
  have hu : unescapePart .host s = some s := by
    unfold unescapePart
    rw [unescape_host fun c hc => ⟨(host_chars c (hm c hc)).2.1, (host_chars c (hm c hc)).1⟩, Option.map_some, textOf_bytesOf]
  unfold parseHost
  rw [if_neg]
  · have hcolon : ∀ c ∈ g!"abcdefghijklmnopqrstuvwxyzABCDEFGHIJKLMNOPQRSTUVWXYZ0123456789-._~", c ≠ ':' := by decide +kernel
    have hdig : ∀ c ∈ g!"0123456789", isDigit c = true ∧ c ≠ ':' := by decide +kernel
    obtain ⟨name, port, h0, h1, h2, rfl | rfl⟩ := h
    · rw [cutLast?_none _ _ fun hx => hcolon _ (h1 _ hx) rfl]
      exact hu
    · rw [cutLast?_append _ _ _ fun hx => (hdig _ (h2 _ hx)).2 rfl]
      dsimp only
      rw [if_pos]
      · exact hu
      · unfold validPort
        simp only [beq_self_eq_true, Bool.true_and, List.all_eq_true]
        exact fun c hc => (hdig c (h2 c hc)).1
  · rw [hasPrefix_iff]
    rintro ⟨t, rfl⟩
    exact (host_chars '[' (hm '[' (by simp))).2.2.2.2.2.1 rfl

theorem authority_text {s : Str} (h : HostText s) : parseAuthorityFull s = some (none, s) := by
  obtain ⟨_, hm⟩ := host_mem h
  unfold parseAuthorityFull
  rw [cutLast?_none _ _ fun hx => (host_chars _ (hm _ hx)).2.2.2.1 rfl, parseHost_text h]
  rfl

theorem escape_host {s : Str} (h : HostText s) : escape .host s = s := by
  have hm := (host_mem h).2
  unfold escape
  clear h
  induction s with
  | nil => rfl
  | cons c s ih =>
    rw [List.flatMap_cons, ih fun d hd => hm d (by simp [hd]), if_neg (by simp [(host_chars c (hm c (by simp))).1])]
    rfl

/-- The path with the given elements. -/
def pathOf (segs : List Str) : Str := segs.flatMap fun s => '/' :: s

theorem pathOf_append (a b : List Str) : pathOf (a ++ b) = pathOf a ++ pathOf b := by simp [pathOf]

theorem pathOf_slashes (k : Nat) : pathOf (List.replicate k []) = List.replicate k '/' := by
  induction k with
  | zero => rfl
  | succ k ih => rw [List.replicate_succ, pathOf, List.flatMap_cons]; show '/' :: pathOf _ = _; rw [ih]; rfl

theorem spelled_pathOf {segs : List Str} {t : Str} (h : SegsText segs t) : Spelled (pathOf segs) t := by
  induction h with
  | nil => exact .nil
  | cons hs _ _ ih =>
    show Spelled ('/' :: _ ++ _) _
    exact spelled_append (slash_spelled hs) ih

theorem spelled_slashes (k : Nat) : Spelled (List.replicate k '/') (List.replicate k '/') := by
  induction k with
  | zero => exact .nil
  | succ k ih => exact slash_spelled ih

theorem segs_head {segs : List Str} {t : Str} (h : SegsText segs t) (k : Nat) :
    t ++ List.replicate k '/' = [] ∨ ∃ u, t ++ List.replicate k '/' = '/' :: u := by
  cases h with
  | nil =>
    cases k with
    | zero => exact Or.inl rfl
    | succ k => exact Or.inr ⟨_, rfl⟩
  | cons => exact Or.inr ⟨_, rfl⟩

/-- How the query is kept. -/
theorem query_kept {a q : Str} (ha : '?' ∉ a) (hq : QueryText q) :
    ∃ force raw, (hasSuffix (a ++ q) g!"?" && ((a ++ q).filter (· == '?')).length == 1) = force ∧ cutQuery (a ++ q) = (a, raw) ∧
      (if force || raw ≠ [] then g!"?" ++ raw else []) = q := by
  rcases hq with rfl | ⟨t, rfl, _⟩
  · refine ⟨false, [], ?_, ?_, rfl⟩
    · rw [List.append_nil]; exact force_false ha
    · rw [List.append_nil]; exact cutQuery_none ha
  · have hf : a.filter (· == '?') = [] := by
      rw [List.filter_eq_nil_iff]
      intro c hc
      simp only [beq_iff_eq]
      rintro rfl
      exact ha hc
    by_cases ht : t = []
    · subst ht
      have e : (hasSuffix (a ++ g!"?") g!"?" && ((a ++ g!"?").filter (· == '?')).length == 1) = true := by
        rw [hasSuffix_append, List.filter_append, hf]
        rfl
      refine ⟨true, [], e, ?_, rfl⟩
      unfold cutQuery
      rw [if_pos e, List.dropLast_concat]
    · have e : (hasSuffix (a ++ '?' :: t) g!"?" && ((a ++ '?' :: t).filter (· == '?')).length == 1) = false := by
        rw [← Bool.not_eq_true]
        intro h
        simp only [Bool.and_eq_true, beq_iff_eq] at h
        obtain ⟨w, hw⟩ := (hasSuffix_iff _ _).1 h.1
        have h1 := h.2
        rw [List.filter_append, hf, List.filter_cons_of_pos (by simp)] at h1
        simp only [List.nil_append, List.length_cons] at h1
        have h2 : t.filter (· == '?') = [] := List.length_eq_zero_iff.1 (by omega)
        have h3 : t.getLast? = some '?' := by
          have := congrArg List.getLast? hw
          rw [getLast?_append_ne _ _ (by simp), getLast?_append_ne _ _ (by simp)] at this
          rw [show '?' :: t = ['?'] ++ t from rfl, getLast?_append_ne _ _ ht] at this
          exact this
        rw [List.filter_eq_nil_iff] at h2
        exact h2 _ (List.mem_of_getLast? h3) (by simp)
      refine ⟨false, t, e, ?_, ?_⟩
      · unfold cutQuery
        rw [e, if_neg (by simp), cut_char _ _ _ ha]
      · simp [ht]

/-- What is read from the URL of an API. -/
theorem parse_api {scheme host : Str} {segs : List Str} {query url : Str} (h : ApiUrl scheme host segs query url) :
    ∃ u k, parseRequest url = some u ∧ u.scheme = scheme ∧ u.opaquePart = [] ∧ u.user = none ∧ u.host = host ∧ u.omitHost = false ∧
      u.path = pathOf segs ++ List.replicate k '/' ∧ (u.rawPath = [] ∨ unescapePart .path u.rawPath = some u.path) ∧
      (if u.forceQuery || u.rawQuery ≠ [] then g!"?" ++ u.rawQuery else []) = query := by
  obtain ⟨hs, hh, hq, t, k, ht, rfl⟩ := h
  obtain ⟨s1, s2, s3⟩ := scheme_lower hs
  obtain ⟨h1, h2⟩ := host_mem hh
  have hsp : Spelled (pathOf segs ++ List.replicate k '/') (t ++ List.replicate k '/') := spelled_append (spelled_pathOf ht) (spelled_slashes k)
  have hpc := spelled_chars hsp
  have hnq : '?' ∉ g!"//" ++ host ++ (t ++ List.replicate k '/') := by
    intro hm
    rcases List.mem_append.1 hm with hm | hm
    · rcases List.mem_append.1 hm with hm | hm
      · simp at hm
      · exact (host_chars _ (h2 _ hm)).2.2.2.2.1 rfl
    · exact (hpc _ hm).2.2 rfl
  obtain ⟨force, raw, q1, q2, q3⟩ := query_kept hnq hq
  have e : scheme ++ g!"://" ++ host ++ t ++ List.replicate k '/' ++ query =
      scheme ++ ':' :: (g!"//" ++ host ++ (t ++ List.replicate k '/') ++ query) := by simp
  have hctl : hasCTL (scheme ++ ':' :: (g!"//" ++ host ++ (t ++ List.replicate k '/') ++ query)) = false := by
    apply hasCTL_false
    intro c hc
    rcases List.mem_append.1 hc with hc | hc
    · exact s3 c hc
    · rcases List.mem_cons.1 hc with rfl | hc
      · decide
      · rcases List.mem_append.1 hc with hc | hc
        · rcases List.mem_append.1 hc with hc | hc
          · rcases List.mem_append.1 hc with hc | hc
            · simp at hc; subst hc; decide
            · exact (host_chars c (h2 c hc)).2.2.2.2.2.2
          · exact ⟨(hpc c hc).1, (hpc c hc).2.1⟩
        · rcases hq with rfl | ⟨w, rfl, hw⟩
          · simp at hc
          · rcases List.mem_cons.1 hc with rfl | hc
            · decide
            · exact hw c hc
  have hstar : scheme ++ ':' :: (g!"//" ++ host ++ (t ++ List.replicate k '/') ++ query) ≠ g!"*" := by
    intro hx
    have : ':' ∈ g!"*" := by rw [← hx]; simp
    simp at this
  rw [e]
  unfold parseRequest
  rw [if_neg (by rw [hctl]; simp), if_neg (by simp), if_neg hstar, getScheme_text hs]
  dsimp only
  rw [q2, q1]
  dsimp only
  rw [if_neg (by
    rw [(hasPrefix_iff (g!"//" ++ host ++ (t ++ List.replicate k '/')) g!"/").2 ⟨g!"/" ++ host ++ (t ++ List.replicate k '/'), by simp⟩]
    simp)]
  rw [if_pos (by
    rw [(hasPrefix_iff (g!"//" ++ host ++ (t ++ List.replicate k '/')) g!"//").2 ⟨host ++ (t ++ List.replicate k '/'), by simp⟩]
    simp [s1])]
  have e2 : (g!"//" ++ host ++ (t ++ List.replicate k '/')).drop 2 = host ++ (t ++ List.replicate k '/') := by simp
  rw [e2]
  have hns : '/' ∉ host := fun hm => (host_chars _ (h2 _ hm)).2.2.1 rfl
  have e3 : (cut (host ++ (t ++ List.replicate k '/')) g!"/").1 = host := by
    rcases segs_head ht k with h0 | ⟨u, h0⟩
    · rw [h0, List.append_nil, cut_char_none _ _ hns]
    · rw [h0, cut_char _ _ _ hns]
  rw [e3, authority_text hh]
  dsimp only
  rw [List.drop_left, s2]
  obtain ⟨r, hr, hr'⟩ := set_spelled { scheme := scheme, host := host, forceQuery := force, rawQuery := raw } hsp
  refine ⟨_, k, hr, rfl, rfl, rfl, rfl, rfl, rfl, ?_, q3⟩
  rcases hr' with rfl | rfl
  · exact Or.inl rfl
  · exact Or.inr (unescapePart_spelled hsp)

/-! ### Writing -/

theorem hexDigit_upper : ∀ n : Fin 16, g!"0123456789ABCDEF"[n.val]? = some (upperHex n.val) := by decide +kernel

theorem coded_upper (bs : List UInt8) : Coded bs (bs.flatMap fun b => ['%', upperHex (b.toNat / 16), upperHex (b.toNat % 16)]) := by
  induction bs with
  | nil => exact .nil
  | cons b bs ih =>
    have hb : b.toNat < 256 := b.toNat_lt
    exact .byte (Or.inr (hexDigit_upper ⟨b.toNat / 16, by omega⟩)) (Or.inr (hexDigit_upper ⟨b.toNat % 16, by omega⟩)) ih

/-- Characters that need no code are those of ASCII that may stand for themselves. -/
theorem plain_of_kept {c : Char} (h : shouldEscape .path c = false) : UrlChar c := by
  by_cases ha : c.toNat < 128
  · have key : ∀ n : Fin 128, shouldEscape .path (Char.ofNat n.val) = false →
        32 ≤ (Char.ofNat n.val).toNat ∧ (Char.ofNat n.val).toNat ≠ 127 ∧ Char.ofNat n.val ≠ '%' ∧ Char.ofNat n.val ≠ '?' := by decide +kernel
    have := key ⟨c.toNat, ha⟩
    simp only [Char.ofNat_toNat] at this
    exact this h
  · refine ⟨by omega, by omega, ?_, ?_⟩ <;> · rintro rfl; exact ha (by decide)

theorem spelled_escape (s : Str) : Spelled s (escape .path s) := by
  induction s with
  | nil => exact .nil
  | cons c s ih =>
    unfold escape
    rw [List.flatMap_cons]
    split
    · exact .coded (coded_upper _) ih
    · rename_i h
      exact .plain (plain_of_kept (by simpa using h)) ih

theorem escape_no_slash {s : Str} (h : '/' ∉ s) : '/' ∉ escape .path s := by
  induction s with
  | nil => simp [escape]
  | cons c s ih =>
    unfold escape
    rw [List.flatMap_cons]
    simp only [List.mem_cons, not_or] at h
    intro hm
    rcases List.mem_append.1 hm with hm | hm
    · split at hm
      · exact (coded_chars (coded_upper _) _ hm).2.2.2 rfl
      · simp only [List.mem_singleton] at hm
        exact h.1 hm
    · exact ih h.2 hm

theorem escape_slash (s : Str) : escape .path ('/' :: s) = '/' :: escape .path s := by
  unfold escape
  rw [List.flatMap_cons, if_neg (by decide)]
  rfl

theorem segs_escape {segs : List Str} (h : ∀ s ∈ segs, '/' ∉ s) : SegsText segs (escape .path (pathOf segs)) := by
  induction segs with
  | nil => exact .nil
  | cons s segs ih =>
    have e : escape .path (pathOf (s :: segs)) = '/' :: escape .path s ++ escape .path (pathOf segs) := by
      show escape .path ('/' :: (s ++ pathOf segs)) = _
      rw [escape_slash]
      unfold escape
      rw [List.flatMap_append]
      rfl
    rw [e]
    exact .cons (spelled_escape s) (escape_no_slash (h s (by simp))) (ih fun x hx => h x (by simp [hx]))

/-- The text of a URL with another path. -/
theorem string_api {u : Request} {path full : Str} (hs : u.scheme ≠ []) (ho : u.opaquePart = []) (hu : u.user = none) (hh : HostText u.host)
    (hm : u.omitHost = false) (hp : path = full ∨ full = '/' :: path) (hf : ∃ r, full = '/' :: r) (hne : path ≠ []) (hstar : path ≠ g!"*")
    (hrel : path = full ∨ ∀ r, path ≠ '/' :: r)
    (hr : u.rawPath = [] ∨ unescapePart .path u.rawPath ≠ some path) :
    ({ u with path := path } : Request).string = u.scheme ++ g!"://" ++ u.host ++ escape .path full ++
      (if u.forceQuery || u.rawQuery ≠ [] then g!"?" ++ u.rawQuery else []) := by
  obtain ⟨h1, _⟩ := host_mem hh
  have he : ({ u with path := path } : Request).escapedPath = escape .path path := by
    unfold Request.escapedPath
    rw [if_neg, if_neg hstar]
    intro h
    simp only [Bool.and_eq_true, decide_eq_true_eq, beq_iff_eq] at h
    rcases hr with hr | hr
    · exact h.1.1 hr
    · exact hr h.2
  unfold Request.string
  dsimp only
  simp only [he]
  simp only [hs, ho, hm, hu, h1, escape_host hh, ne_eq, not_true_eq_false, not_false_eq_true, decide_true, decide_false, Bool.true_or,
    Bool.false_and, Bool.false_eq_true, if_true, if_false, Bool.and_true]
  congr 1
  obtain ⟨r, rfl⟩ := hf
  by_cases hpf : path = '/' :: r
  · subst hpf
    have hsl : hasPrefix (escape .path ('/' :: r)) g!"/" = true := by
      rw [escape_slash]
      exact (hasPrefix_iff _ _).2 ⟨_, rfl⟩
    simp [hsl]
  · have e : '/' :: r = '/' :: path := hp.resolve_left hpf
    cases e
    have hn : ∀ r, path ≠ '/' :: r := hrel.resolve_left hpf
    have hne' : escape .path path ≠ [] := by
      intro hx
      have := spelled_escape path
      rw [hx] at this
      have h2 := unescapePart_spelled this
      simp [unescapePart, unescapeBytes, textOf] at h2
      exact hne h2
    have hnp : hasPrefix (escape .path path) g!"/" = false := by
      rw [← Bool.not_eq_true, hasPrefix_iff]
      rintro ⟨w, hw⟩
      exact spelled_relative (spelled_escape path) hn w hw
    rw [escape_slash]
    simp [hne', hnp]

end Osv.Url
