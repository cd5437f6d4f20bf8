import Verif.Props.C94
import Verif.Props.C99
/-! # C100: requests keep the user and the host of the API -/
namespace Osv
open Str Spec

namespace Spec

/-- The zone of an address, if it has one, is of ASCII. -/
def AsciiZone (host : Str) : Prop := ∀ r, host = '[' :: r → '%' ∈ r → ∀ c ∈ r, c.toNat < 128

/-- The path with the given elements. -/
def segPath (segs : List Str) : Str := segs.flatMap fun s => '/' :: s

end Spec

namespace Url

theorem uri_endpoint {parts : UriParts} {url : Str} {segs new : List Str} {k : Nat} (h : UriOf parts url) (hh : parts.host ≠ [])
    (hz : AsciiZone parts.host) (hp : parts.path = segPath segs ++ List.replicate k '/') (hs : NamedSegs segs) (hsl : ∀ s ∈ segs, '/' ∉ s)
    (hn : NamedSegs new) (hns : ∀ s ∈ new, '/' ∉ s) (hne : new ≠ []) (f : Str → Str)
    (hf0 : f [] = (segPath new).drop 1) (hf : ∀ p, p ≠ [] → f p = Path.clean (p ++ segPath new)) :
    ∃ u, parseRequest url = some u ∧ UriOf { parts with path := segPath (segs ++ new) } ({ u with path := f u.path } : Request).string := by
  obtain ⟨n, ns, rfl⟩ := List.exists_cons_of_ne_nil hne
  have hn1 := (hn n (by simp)).1
  have hn2 := hns n (by simp)
  obtain ⟨c, t, rfl⟩ := List.exists_cons_of_ne_nil hn1
  have hc : c ≠ '/' := by simp at hn2; exact fun e => hn2.1 e.symm
  have hhead : ∃ r, segPath (segs ++ (c :: t) :: ns) = '/' :: r := by
    cases segs with
    | nil => exact ⟨_, rfl⟩
    | cons => exact ⟨_, rfl⟩
  have key : f parts.path ≠ [] ∧ (if hasPrefix (f parts.path) g!"/" then f parts.path else '/' :: f parts.path) = segPath (segs ++ (c :: t) :: ns) := by
    by_cases hpe : parts.path = []
    · have hsn : segs = [] := by
        cases segs with
        | nil => rfl
        | cons => rw [hpe] at hp; cases hp
      subst hsn
      have e : f parts.path = c :: t ++ segPath ns := by rw [hpe, hf0]; rfl
      rw [e]
      have hnp : hasPrefix (c :: t ++ segPath ns) g!"/" = false := by
        rw [← Bool.not_eq_true, hasPrefix_iff]
        rintro ⟨r, hr⟩
        exact hc (List.cons.inj hr).1
      rw [hnp]
      exact ⟨by simp, rfl⟩
    · have e : f parts.path = segPath (segs ++ (c :: t) :: ns) := by
        rw [hf _ hpe, hp]
        exact clean_segs k hs hsl hn hns (by simp)
      obtain ⟨r, hr⟩ := hhead
      rw [e, hr, (hasPrefix_iff ('/' :: r) g!"/").2 ⟨r, rfl⟩]
      exact ⟨by simp, rfl⟩
  obtain ⟨u, h1, h2, h3⟩ := uri_write h hh hz (f parts.path) key.1
  rw [key.2] at h3
  refine ⟨u, h1, ?_⟩
  rw [h2]
  exact h3

end Url

/-- The URL of a batch of queries, for every URL with a host: all parts other than the path are kept, the path gets another element. -/
def C100_full : Prop :=
  ∀ (parts : UriParts) (url : Str) (segs : List Str) (k : Nat), UriOf parts url → parts.host ≠ [] →
    parts.path = segPath segs ++ List.replicate k '/' → NamedSegs segs → (∀ s ∈ segs, '/' ∉ s) →
    ∃ u, Url.parseRequest url = some u ∧ UriOf { parts with path := segPath (segs ++ [g!"querybatch"]) } (bulkEndpoint u)

/-- It holds if the zone of the host is of ASCII, or there is none. Missing: addresses with other zones. -/
theorem C100_queries_partial (parts : UriParts) (url : Str) (segs : List Str) (k : Nat) (h : UriOf parts url) (hh : parts.host ≠ [])
    (hz : AsciiZone parts.host) (hp : parts.path = segPath segs ++ List.replicate k '/') (hs : NamedSegs segs) (hsl : ∀ s ∈ segs, '/' ∉ s) :
    ∃ u, Url.parseRequest url = some u ∧ UriOf { parts with path := segPath (segs ++ [g!"querybatch"]) } (bulkEndpoint u) := by
  refine Url.uri_endpoint h hh hz hp hs hsl (new := [g!"querybatch"]) (by unfold NamedSegs; decide) (by decide) (by simp) bulkPath ?_ ?_
  · decide +kernel
  · intro p hp
    unfold bulkPath Path.join2
    rw [if_pos hp]
    simp [segPath]

/-- The same for the URL of an advisory. -/
theorem C100_advisories_partial (parts : UriParts) (url : Str) (segs : List Str) (k : Nat) (h : UriOf parts url) (hh : parts.host ≠ [])
    (hz : AsciiZone parts.host) (hp : parts.path = segPath segs ++ List.replicate k '/') (hs : NamedSegs segs) (hsl : ∀ s ∈ segs, '/' ∉ s)
    (id : Str) (hid : PlainID id) :
    ∃ u, Url.parseRequest url = some u ∧ UriOf { parts with path := segPath (segs ++ [g!"vulns", id]) } (osvEndpoint u id) := by
  obtain ⟨i1, i2, i3, i4⟩ := hid
  have hn : NamedSegs [g!"vulns", id] := by
    intro s hx
    simp only [List.mem_cons, List.not_mem_nil, or_false] at hx
    rcases hx with rfl | rfl
    · decide
    · exact ⟨i2, i3, i4⟩
  have hns : ∀ s ∈ [g!"vulns", id], '/' ∉ s := by
    intro s hx
    simp only [List.mem_cons, List.not_mem_nil, or_false] at hx
    rcases hx with rfl | rfl
    · decide
    · exact i1
  refine Url.uri_endpoint h hh hz hp hs hsl (new := [g!"vulns", id]) hn hns (by simp) (vulnPath · id) ?_ ?_
  · unfold vulnPath joinPath3
    dsimp only
    rw [if_neg i2, if_pos rfl]
    have := Url.clean_names hn hns
    simpa [Url.pathOf, segPath] using this
  · intro p hp
    unfold vulnPath joinPath3
    dsimp only
    rw [if_neg i2, if_neg hp]
    simp [segPath]

/-- With any path at all, what is written is a URL with the other parts and that path. -/
theorem C100_path_partial (parts : UriParts) (url : Str) (h : UriOf parts url) (hh : parts.host ≠ []) (hz : AsciiZone parts.host) (p : Str)
    (hp : p ≠ []) :
    ∃ u, Url.parseRequest url = some u ∧
      (∀ r, p = '/' :: r → UriOf { parts with path := p } ({ u with path := p } : Url.Request).string) ∧
      ((∀ r, p ≠ '/' :: r) → UriOf { parts with path := '/' :: p } ({ u with path := p } : Url.Request).string) := by
  obtain ⟨u, h1, _, h3⟩ := Url.uri_write h hh hz p hp
  refine ⟨u, h1, ?_, ?_⟩
  · rintro r rfl
    rwa [(hasPrefix_iff ('/' :: r) g!"/").2 ⟨r, rfl⟩] at h3
  · intro hr
    have : hasPrefix p g!"/" = false := by
      rw [← Bool.not_eq_true, hasPrefix_iff]
      rintro ⟨r, rfl⟩
      exact hr r rfl
    rwa [this] at h3

/-- A URL with something other than a path behind its scheme is used for all requests as it is. -/
theorem C100_rest_partial (parts : UriParts) (url : Str) (h : UriOf parts url) (hr : parts.rest ≠ []) (id : Str) :
    ∃ u, Url.parseRequest url = some u ∧ bulkEndpoint u = parts.scheme ++ ':' :: parts.rest ++ uriQuery parts.query ∧ osvEndpoint u id = bulkEndpoint u := by
  obtain ⟨raw, h1, _⟩ := Url.uri_parts h
  have hs : parts.scheme ≠ [] := by
    obtain ⟨_, h⟩ := h
    cases h with
    | star => exact absurd rfl hr
    | path => exact absurd rfl hr
    | bare hs => exact Url.scheme_ne (Url.lower_scheme hs).1
    | rooted => exact absurd rfl hr
    | full => exact absurd rfl hr
  refine ⟨_, h1, ?_, ?_⟩
  · unfold bulkEndpoint Url.Request.string
    dsimp only
    rw [if_neg hs, if_pos hr, Url.query_write]
    simp
  · unfold osvEndpoint bulkEndpoint Url.Request.string
    dsimp only
    rw [if_pos hr, if_pos hr]

/-- A zone with another character: its bytes are written as codes, which may not be used in a zone. -/
theorem C100_counterexample : ¬ C100_full := by
  intro h
  obtain ⟨u, hu, hx⟩ := h { scheme := g!"https", host := g!"[::1%é]", path := [] } g!"https://[::1%25é]" [] 0
    ⟨by unfold UriChars; decide, .full (s := g!"https") (a := g!"[::1%25é]") (t := []) (q := none)
      ⟨'h', g!"ttps", rfl, by decide, by decide⟩ (by decide) (by decide)
      (.host (by decide) (.zone (h := g!"[::1") (z := g!"é") (e := g!"]") (i := g!"::1") (t := g!"é") (p := []) (Or.inl rfl)
        (fun a b he => by
          have : '%' ∈ g!"[::1" := by rw [show g!"[::1" = '[' :: g!"::1" from rfl, he]; simp
          simp at this)
        (uriSpelled_self _ _ (by unfold UriPlain; decide)) (uriSpelled_self _ _ (by unfold UriPlain; decide))
        (uriSpelled_self _ _ (by unfold UriPlain; decide))))
      (Or.inl rfl) (by decide) .nil⟩
    (by decide) rfl (by unfold NamedSegs; decide) (by decide)
  have e : (Url.parseRequest g!"https://[::1%25é]").map bulkEndpoint = some g!"https://[::1%25%C3%A9]/querybatch" := by decide +kernel
  rw [hu] at e
  rw [show bulkEndpoint u = _ from Option.some.inj e] at hx
  have h2 := (C99_accepted _).2 (C99_texts _ _ hx)
  exact absurd h2 (by decide +kernel)

/-! ### Non-vacuity -/

/-- The URL of C99 with another path. -/
example : AsciiZone g!"[fe80::1%en 0]:8080" ∧ g!"[fe80::1%en 0]:8080" ≠ [] ∧ g!"/é" = segPath [g!"é"] ++ List.replicate 0 '/' ∧
    NamedSegs [g!"é"] ∧ ∀ s ∈ [g!"é"], '/' ∉ s :=
  ⟨fun r h _ => by cases h; decide, by decide, rfl, by unfold NamedSegs; decide, by decide⟩

example : (Url.parseRequest g!"HTTPS://a%3Ab:%C3%BC@[fe80::1%25en%200]:8080/é?x=1?").map bulkEndpoint =
    some g!"https://a%3Ab:%C3%BC@[fe80::1%25en%200]:8080/%C3%A9/querybatch?x=1?" := by decide +kernel

end Osv
