import Verif.Lemmas.UriWrite
import Verif.Props.C36
/-! # C99: request URIs -/
namespace Osv
open Str Spec

/-- The URLs that are accepted are exactly the ones of the grammar. -/
theorem C99_accepted (s : Str) : Url.validRequest s = true ↔ IsRequestUri s := by
  unfold Url.validRequest
  rw [Option.isSome_iff_exists]
  constructor
  · rintro ⟨u, h⟩
    exact Url.uri_inv h
  · rintro ⟨hc, parts, h⟩
    obtain ⟨u, hu, _⟩ := Url.uri_read (E := fun _ _ => True)
      (fun k p t h => by obtain ⟨q, hq⟩ := (Url.unescapePart_ok k t).2 h; exact ⟨q, hq, trivial⟩)
      (fun _ _ _ _ _ _ => trivial) (fun _ _ _ _ => trivial) trivial hc h
    exact ⟨u, hu⟩

/-- Their parts are read as they are written. -/
theorem C99_parts (parts : UriParts) (s : Str) (h : UriOf parts s) :
    ∃ raw, Url.parseRequest s = some
      { scheme := parts.scheme, opaquePart := parts.rest, user := parts.user.map fun x => ⟨x.1, x.2⟩, host := parts.host, path := parts.path,
        rawPath := raw, omitHost := parts.hostless, forceQuery := decide (parts.query = some []), rawQuery := parts.query.getD [] } := by
  obtain ⟨raw, h, _⟩ := Url.uri_parts h
  exact ⟨raw, h⟩

/-- A text has the parts of at most one URI. -/
theorem C99_unique (p q : UriParts) (s : Str) (hp : UriOf p s) (hq : UriOf q s) : p = q := by
  obtain ⟨r1, h1⟩ := C99_parts p s hp
  obtain ⟨r2, h2⟩ := C99_parts q s hq
  rw [h1] at h2
  have h := Option.some.inj h2
  simp only [Url.Request.mk.injEq] at h
  obtain ⟨a1, a2, a3, a4, a5, _, a7, a8, a9⟩ := h
  have hu : p.user = q.user := by
    revert a3
    rcases p.user with _ | ⟨n, x⟩ <;> rcases q.user with _ | ⟨m, y⟩
    · exact fun _ => rfl
    · intro h; cases h
    · intro h; cases h
    · intro h
      cases h
      rfl
  have hy : p.query = q.query := by
    revert a8 a9
    rcases p.query with _ | x <;> rcases q.query with _ | y
    · exact fun _ _ => rfl
    · intro h1 h2
      cases h2
      simp at h1
    · intro h1 h2
      cases (h2 : x = [])
      simp at h1
    · intro _ h
      cases (h : x = y)
      rfl
  cases p
  cases q
  simp_all

/-- Any URI with texts as its parts is accepted. -/
theorem C99_texts (parts : UriParts) (s : Str) (h : UriOf parts s) : IsRequestUri s := by
  obtain ⟨raw, h⟩ := C99_parts parts s h
  exact (C99_accepted s).1 (by unfold Url.validRequest; rw [h]; rfl)

/-- An entry of a config becomes a database exactly if its URL is a request URI and its type is known. -/
theorem C99_config (d : RawDB) (c : DBConfig) :
    d.toConfig Url.validRequest = .ok c ↔ IsRequestUri d.url ∧ c.type ∈ [g!"zip", g!"api", g!"dir"] ∧ HasType d c.type ∧ c.url = d.url ∧
      c.workingDirectory = d.workingDirectory ∧ c.name = (if d.name = [] then c.identifier else d.name) := by
  rw [C36_kept, C99_accepted]

/-- Other entries are dropped, first of all because their URL is none. -/
theorem C99_dropped (d : RawDB) (e : RawDBErr) :
    d.toConfig Url.validRequest = .error e ↔ (¬ IsRequestUri d.url ∧ e = .badURL) ∨
      (IsRequestUri d.url ∧ ∃ t, HasType d t ∧ t ∉ [g!"zip", g!"api", g!"dir"] ∧ e = .unsupportedType t) := by
  rw [C36_dropped, C99_accepted, ← Bool.not_eq_true, C99_accepted]

/-! ### Non-vacuity -/

theorem uriSpelled_self (k : UriKind) (s : Str) (h : ∀ c ∈ s, UriPlain k c) : UriSpelled k s s := by
  induction s with
  | nil => exact .nil
  | cons c s ih => exact .plain (h c (by simp)) (ih fun d hd => h d (by simp [hd]))

/-- A URL with a user, a password, an address with a zone and a port, and a query. -/
theorem C99_sample : UriOf
    { scheme := g!"https", user := some (g!"a:b", some g!"ü"), host := g!"[fe80::1%en 0]:8080", path := g!"/é", query := some g!"x=1?" }
    g!"HTTPS://a%3Ab:%C3%BC@[fe80::1%25en%200]:8080/é?x=1?" := by
  refine ⟨by unfold UriChars; decide, ?_⟩
  have h1 : UriSpelled .user g!"a:b" g!"a%3Ab" :=
    .plain (by unfold UriPlain; decide) (.coded (t := g!"%3A") (u := g!"b") (.byte (b := 0x3a) (Or.inl rfl) (Or.inr rfl) .nil) (fun _ _ => trivial)
      (.plain (by unfold UriPlain; decide) .nil))
  have h2 : UriSpelled .user g!"ü" g!"%C3%BC" :=
    .coded (t := g!"%C3%BC") (u := []) (.byte (b := 0xc3) (Or.inr rfl) (Or.inl rfl) (.byte (b := 0xbc) (Or.inr rfl) (Or.inr rfl) .nil)) (fun _ _ => trivial)
      .nil
  have h3 : UriSpelled .zone g!"en 0" g!"en%200" :=
    .plain (by unfold UriPlain; decide) (.plain (by unfold UriPlain; decide) (.coded (t := g!"%20") (u := g!"0") (.byte (b := 0x20) (Or.inl rfl) (Or.inl rfl) .nil)
      (fun b hb => by
        have e : String.utf8EncodeChar ' ' = [32] := by decide +kernel
        rw [e] at hb
        simp only [List.mem_singleton] at hb
        subst hb
        exact Or.inr (Or.inl rfl))
      (.plain (by unfold UriPlain; decide) .nil)))
  have h4 : UriHost UriSpelled g!"[fe80::1%en 0]:8080" g!"[fe80::1%25en%200]:8080" :=
    .zone (h := g!"[fe80::1") (z := g!"en 0") (e := g!"]:8080") (i := g!"fe80::1") (t := g!"en%200") (p := g!":8080")
      (Or.inr ⟨g!"8080", rfl, by unfold UriDigits; decide⟩)
      (fun a b he => by
        have : '%' ∈ g!"[fe80::1" := by rw [show g!"[fe80::1" = '[' :: g!"fe80::1" from rfl, he]; simp
        simp at this)
      (uriSpelled_self _ _ (by unfold UriPlain; decide)) h3 (uriSpelled_self _ _ (by unfold UriPlain; decide))
  exact .full (s := g!"HTTPS") (a := g!"a%3Ab:%C3%BC@[fe80::1%25en%200]:8080") (t := g!"/é") (q := some g!"x=1?")
    ⟨'H', g!"TTPS", rfl, by decide, by decide⟩ (by decide) (by decide)
    (.user (u := g!"a%3Ab:%C3%BC") (t := g!"[fe80::1%25en%200]:8080") (.password (t := g!"a%3Ab") (u := g!"%C3%BC") (by decide) (by decide) (by decide) h1 h2)
      (by decide) h4)
    (Or.inr ⟨g!"é", rfl⟩) (by decide) (uriSpelled_self _ _ (by unfold UriPlain; decide))

/-- What is read for it. -/
example : Url.parseRequest g!"HTTPS://a%3Ab:%C3%BC@[fe80::1%25en%200]:8080/é?x=1?" = some
    { scheme := g!"https", user := some ⟨g!"a:b", some g!"ü"⟩, host := g!"[fe80::1%en 0]:8080", path := g!"/é", rawPath := g!"/é"
      rawQuery := g!"x=1?" } := by decide +kernel

/-- A byte that is no text is accepted as well. -/
example : IsRequestUri g!"/%ff" ∧ ¬ IsRequestUri g!"https://h:8a/" ∧ ¬ IsRequestUri g!"a/b" ∧ ¬ IsRequestUri g!"https://[::1" ∧
    ¬ IsRequestUri g!"https://a b@h/" ∧ ¬ IsRequestUri g!"https://h/%4" := by
  simp only [← C99_accepted]
  decide +kernel

end Osv
