import Verif.Lemmas.ApiUrl
import Verif.Lemmas.Path
import Verif.Props.C71
/-! # C94: requests go to the URL of the API -/
namespace Osv
open Str Spec

namespace Spec

/-- Elements of a path that are names. -/
def NamedSegs (segs : List Str) : Prop := ∀ s ∈ segs, s ≠ [] ∧ s ≠ g!"." ∧ s ≠ g!".."

end Spec

namespace Url

theorem join_pathOf (x : Str) (xs : List Str) : join g!"/" (x :: xs) = x ++ pathOf xs := by
  induction xs generalizing x with
  | nil => simp [join, pathOf]
  | cons y ys ih =>
    show x ++ g!"/" ++ join g!"/" (y :: ys) = _
    rw [ih]
    simp [pathOf]

theorem cleanComps_gaps (rooted : Bool) (acc : List Str) (k : Nat) (cs : List Str) :
    Path.cleanComps rooted acc (List.replicate k [] ++ cs) = Path.cleanComps rooted acc cs := by
  induction k with
  | zero => rfl
  | succ k ih =>
    rw [List.replicate_succ, List.cons_append]
    conv => lhs; unfold Path.cleanComps
    rw [if_pos (Or.inl rfl), ih]

theorem cleanComps_named (rooted : Bool) (segs rest : List Str) (h : NamedSegs segs) (acc : List Str) :
    Path.cleanComps rooted acc (segs ++ rest) = Path.cleanComps rooted (segs.reverse ++ acc) rest := by
  induction segs generalizing acc with
  | nil => rfl
  | cons s segs ih =>
    have hss := h s (by simp)
    rw [List.cons_append]
    conv => lhs; unfold Path.cleanComps
    rw [if_neg (by simp [hss.1, hss.2.1]), if_neg hss.2.2, ih fun x hx => h x (by simp [hx])]
    simp

/-- Cleaning a path with repeated slashes in it. -/
theorem clean_segs {segs new : List Str} (k : Nat) (h : NamedSegs segs) (hs : ∀ s ∈ segs, '/' ∉ s) (hn : NamedSegs new)
    (hns : ∀ s ∈ new, '/' ∉ s) (hne : new ≠ []) :
    Path.clean (pathOf segs ++ List.replicate k '/' ++ pathOf new) = pathOf (segs ++ new) := by
  obtain ⟨n, ns, rfl⟩ := List.exists_cons_of_ne_nil hne
  have e : pathOf segs ++ List.replicate k '/' ++ pathOf (n :: ns) = join g!"/" ([] :: (segs ++ List.replicate k [] ++ n :: ns)) := by
    rw [join_pathOf, pathOf_append, pathOf_append, pathOf_slashes]
    rfl
  have hsplit : splitChar '/' (pathOf segs ++ List.replicate k '/' ++ pathOf (n :: ns)) = [] :: (segs ++ List.replicate k [] ++ n :: ns) := by
    rw [e]
    apply splitChar_join
    · simp
    · intro p hp
      rcases List.mem_cons.1 hp with rfl | hp
      · simp
      · rcases List.mem_append.1 hp with hp | hp
        · rcases List.mem_append.1 hp with hp | hp
          · exact hs p hp
          · rw [List.eq_of_mem_replicate hp]; simp
        · exact hns p hp
  have hhead : (pathOf segs ++ List.replicate k '/' ++ pathOf (n :: ns)).head? = some '/' := by
    cases segs with
    | cons s segs => rfl
    | nil =>
      cases k with
      | zero => rfl
      | succ k => rfl
  have hcc : Path.cleanComps true [] ([] :: (segs ++ List.replicate k [] ++ n :: ns)) = segs ++ n :: ns := by
    have := cleanComps_gaps true [] 1 (segs ++ List.replicate k [] ++ n :: ns)
    rw [show List.replicate 1 ([] : Str) = [[]] from rfl, List.singleton_append] at this
    rw [this, List.append_assoc, cleanComps_named _ _ _ h, cleanComps_gaps, Path.cleanComps_plain _ _ _ hn]
    simp
  unfold Path.clean
  rw [if_neg (by intro hx; rw [hx] at hhead; cases hhead), if_pos hhead, hsplit, hcc]
  cases segs with
  | nil => rw [List.nil_append, join_pathOf]; rfl
  | cons s segs => rw [List.cons_append, join_pathOf]; rfl

/-- The same for a URL without a path. -/
theorem clean_names {n : Str} {ns : List Str} (hn : NamedSegs (n :: ns)) (hns : ∀ s ∈ n :: ns, '/' ∉ s) :
    Path.clean (n ++ pathOf ns) = n ++ pathOf ns := by
  have hsplit : splitChar '/' (n ++ pathOf ns) = n :: ns := by
    rw [← join_pathOf]
    exact splitChar_join _ _ (by simp) hns
  have h1 := (hn n (by simp)).1
  have h2 := hns n (by simp)
  obtain ⟨c, t, rfl⟩ := List.exists_cons_of_ne_nil h1
  unfold Path.clean
  rw [if_neg (by simp), if_neg (by simp at h2 ⊢; exact fun e => h2.1 e.symm)]
  dsimp only
  rw [hsplit, Path.cleanComps_plain _ _ _ hn, List.reverse_nil, List.nil_append, join_pathOf, if_neg (by simp)]

/-- The URL of a request, for any way to extend the path that cleans it. -/
theorem endpoint {scheme host : Str} {segs new : List Str} {query url : Str} (h : ApiUrl scheme host segs query url) (hs : NamedSegs segs)
    (hsl : ∀ s ∈ segs, '/' ∉ s) (hn : NamedSegs new) (hns : ∀ s ∈ new, '/' ∉ s) (hne : new ≠ []) (hstar : pathOf new ≠ g!"/*") (f : Str → Str)
    (hf0 : f [] = (pathOf new).drop 1) (hf : ∀ p, p ≠ [] → f p = Path.clean (p ++ pathOf new)) :
    ∃ u, parseRequest url = some u ∧ ApiUrl scheme host (segs ++ new) query ({ u with path := f u.path } : Request).string := by
  obtain ⟨u, k, hu, hsch, ho, hus, hh, hom, hp, hraw, hq⟩ := parse_api h
  obtain ⟨h1, h2, h3, _⟩ := h
  refine ⟨u, hu, h1, h2, h3, escape .path (pathOf (segs ++ new)), 0, segs_escape ?_, ?_⟩
  · intro s hx
    rcases List.mem_append.1 hx with hx | hx
    · exact hsl s hx
    · exact hns s hx
  · obtain ⟨n, ns, rfl⟩ := List.exists_cons_of_ne_nil hne
    have hhead : ∃ r, pathOf (segs ++ n :: ns) = '/' :: r := by
      cases segs with
      | nil => exact ⟨_, rfl⟩
      | cons => exact ⟨_, rfl⟩
    have hn1 := (hn n (by simp)).1
    have hn2 := hns n (by simp)
    obtain ⟨c, t, rfl⟩ := List.exists_cons_of_ne_nil hn1
    have hc : c ≠ '/' := by simp at hn2; exact fun e => hn2.1 e.symm
    have hcase : (f u.path = pathOf (segs ++ (c :: t) :: ns)) ∨ (u.path = [] ∧ segs = [] ∧ f u.path = c :: t ++ pathOf ns) := by
      by_cases hpe : u.path = []
      · right
        rw [hpe] at hp
        have hsn : segs = [] := by
          cases segs with
          | nil => rfl
          | cons => cases hp
        exact ⟨hpe, hsn, by rw [hpe, hf0]; rfl⟩
      · left
        rw [hf _ hpe, hp, clean_segs k hs hsl hn hns (by simp)]
    have hdiff : f u.path ≠ u.path := by
      rcases hcase with hc' | ⟨h0, _, hc'⟩
      · rw [hc', hp, pathOf_append]
        intro e
        have e := List.append_cancel_left e
        have : c ∈ List.replicate k '/' := by rw [← e]; simp [pathOf]
        exact hc (List.eq_of_mem_replicate this)
      · rw [hc', h0]; simp
    rw [string_api (full := pathOf (segs ++ (c :: t) :: ns)) (by rw [hsch]; exact (scheme_lower h1).1) ho hus (by rw [hh]; exact h2) hom ?_ hhead
      ?_ ?_ ?_ ?_, hq, hsch, hh]
    · simp
    · rcases hcase with hc' | ⟨_, rfl, hc'⟩
      · exact Or.inl hc'
      · exact Or.inr (by rw [hc']; rfl)
    · rcases hcase with hc' | ⟨_, _, hc'⟩
      · rw [hc']; obtain ⟨r, hr⟩ := hhead; rw [hr]; simp
      · rw [hc']; simp
    · rcases hcase with hc' | ⟨_, rfl, hc'⟩
      · rw [hc']; obtain ⟨r, hr⟩ := hhead; rw [hr]; simp
      · rw [hc']
        intro e
        exact hstar (by simpa [pathOf] using e)
    · rcases hcase with hc' | ⟨_, rfl, hc'⟩
      · exact Or.inl hc'
      · right
        rw [hc']
        intro r e
        cases e
        exact hc rfl
    · rcases hraw with hraw | hraw
      · exact Or.inl hraw
      · right
        rw [hraw]
        intro e
        exact hdiff (Option.some.inj e).symm

end Url

/-- The URL of a batch of queries, for every URL of an API: the same with `querybatch` as another element of the path. -/
def C94_full : Prop :=
  ∀ scheme host segs query url, ApiUrl scheme host segs query url → NamedSegs segs →
    ∃ u, Url.parseRequest url = some u ∧ ApiUrl scheme host (segs ++ [g!"querybatch"]) query (bulkEndpoint u)

/-- It holds if no element of the path contains a slash. Missing: elements with a coded slash. -/
theorem C94_queries_partial (scheme host : Str) (segs : List Str) (query url : Str) (h : ApiUrl scheme host segs query url) (hs : NamedSegs segs)
    (hsl : ∀ s ∈ segs, '/' ∉ s) :
    ∃ u, Url.parseRequest url = some u ∧ ApiUrl scheme host (segs ++ [g!"querybatch"]) query (bulkEndpoint u) := by
  refine Url.endpoint h hs hsl (new := [g!"querybatch"]) (by unfold NamedSegs; decide) (by decide) (by simp) (by decide) bulkPath ?_ ?_
  · decide +kernel
  · intro p hp
    unfold bulkPath Path.join2
    rw [if_pos hp]
    simp [Url.pathOf]

/-- The URL of an advisory. Its ID is an element of the path, whatever characters other than slashes are in it. -/
theorem C94_advisories_partial (scheme host : Str) (segs : List Str) (query url : Str) (h : ApiUrl scheme host segs query url) (hs : NamedSegs segs)
    (hsl : ∀ s ∈ segs, '/' ∉ s) (id : Str) (hid : PlainID id) :
    ∃ u, Url.parseRequest url = some u ∧ ApiUrl scheme host (segs ++ [g!"vulns", id]) query (osvEndpoint u id) := by
  obtain ⟨i1, i2, i3, i4⟩ := hid
  have hn : NamedSegs [g!"vulns", id] := by
    intro s hx
    simp only [List.mem_cons, List.not_mem_nil, or_false] at hx
    rcases hx with rfl | rfl
    · decide
    · exact ⟨i2, i3, i4⟩
  have hns : ∀ s ∈ [g!"vulns", id], '/' ∉ s := by
    intro s hx
    simp only [List.mem_cons, List.not_mem_nil, or_false] at hx
    rcases hx with rfl | rfl
    · decide
    · exact i1
  refine Url.endpoint h hs hsl (new := [g!"vulns", id]) hn hns (by simp) (by simp [Url.pathOf]) (vulnPath · id) ?_ ?_
  · unfold vulnPath joinPath3
    dsimp only
    rw [if_neg i2, if_pos rfl]
    have := Url.clean_names hn hns
    simpa [Url.pathOf] using this
  · intro p hp
    unfold vulnPath joinPath3
    dsimp only
    rw [if_neg i2, if_neg hp]
    simp [Url.pathOf]

/-- Different advisories have different URLs. -/
theorem C94_distinct_partial (scheme host : Str) (segs : List Str) (query url : Str) (h : ApiUrl scheme host segs query url)
    (hs : NamedSegs segs) (hsl : ∀ s ∈ segs, '/' ∉ s) (a b : Str) (ha : PlainID a) (hb : PlainID b) (u : Url.Request)
    (hu : Url.parseRequest url = some u) (he : osvEndpoint u a = osvEndpoint u b) : a = b := by
  obtain ⟨u1, hu1, h1⟩ := C94_advisories_partial scheme host segs query url h hs hsl a ha
  obtain ⟨u2, hu2, h2⟩ := C94_advisories_partial scheme host segs query url h hs hsl b hb
  rw [hu] at hu1 hu2
  cases hu1
  cases hu2
  obtain ⟨v, k, hv, _, _, _, _, _, hp, _⟩ := Url.parse_api h1
  obtain ⟨w, l, hw, _, _, _, _, _, hq, _⟩ := Url.parse_api h2
  rw [he, hw] at hv
  cases hv
  rw [hp] at hq
  have e : ∀ x : Str, Url.pathOf (segs ++ [g!"vulns", x]) = Url.pathOf segs ++ g!"/vulns/" ++ x := by
    intro x
    rw [Url.pathOf_append]
    simp [Url.pathOf]
  rw [e, e, List.append_assoc, List.append_assoc (_ ++ _)] at hq
  have hq := List.append_cancel_left hq
  have cut : ∀ (x : Str) (n : Nat), '/' ∉ x → (x ++ List.replicate n '/').takeWhile (· ≠ '/') = x := by
    intro x n hx
    rw [List.takeWhile_append_of_pos]
    · cases n <;> simp [List.replicate_succ]
    · intro c hc
      simp only [ne_eq, decide_not, Bool.not_eq_eq_eq_not, Bool.not_true, decide_eq_false_iff_not]
      rintro rfl
      exact hx hc
  rw [← cut a k ha.1, hq, cut b l hb.1]

theorem segsText_slashes {segs : List Str} {t : Str} (h : SegsText segs t) : t.count '/' = segs.length := by
  induction h with
  | nil => rfl
  | cons _ h2 _ ih => simp [List.count_append, ih, List.count_eq_zero_of_not_mem h2]

/-- A coded slash is written as a slash, so `a%2Fb` becomes two elements. -/
theorem C94_counterexample : ¬ C94_full := by
  intro h
  obtain ⟨u, hu, _, _, _, t, k, ht, he⟩ := h g!"https" g!"h" [g!"a/b"] [] g!"https://h/a%2Fb"
    ⟨⟨'h', g!"ttps", rfl, by decide, by decide⟩, ⟨g!"h", [], by decide, by decide, by decide, Or.inl rfl⟩, Or.inl rfl, g!"/a%2Fb", 0,
      .cons (t := g!"a%2Fb") (u := []) (.plain (by unfold UrlChar; decide) (.coded (t := g!"%2F") (u := g!"b")
        (.byte (Or.inl rfl) (Or.inr rfl) .nil) (.plain (by unfold UrlChar; decide) .nil))) (by decide) .nil, rfl⟩
    (by unfold NamedSegs; decide)
  have e : (Url.parseRequest g!"https://h/a%2Fb").map bulkEndpoint = some g!"https://h/a/b/querybatch" := by decide +kernel
  rw [hu] at e
  rw [show bulkEndpoint u = _ from Option.some.inj e] at he
  have h1 : t ++ List.replicate k '/' = g!"/a/b/querybatch" := by simpa using he.symm
  have h2 := congrArg (List.count '/') h1
  rw [List.count_append, segsText_slashes ht] at h2
  have hk : k = 1 := by
    have : List.count '/' (List.replicate k '/') = k := by simp
    rw [this] at h2
    have : List.count '/' g!"/a/b/querybatch" = 3 := by decide
    rw [this] at h2
    simp at h2
    omega
  subst hk
  have h3 := congrArg List.getLast? h1
  simp at h3

/-! ### Non-vacuity -/

/-- The URL of the API of osv.dev. -/
example : ApiUrl g!"https" g!"api.osv.dev" [g!"v1"] [] g!"https://api.osv.dev/v1" ∧ NamedSegs [g!"v1"] ∧ ∀ s ∈ [g!"v1"], '/' ∉ s :=
  ⟨⟨⟨'h', g!"ttps", rfl, by decide, by decide⟩, ⟨g!"api.osv.dev", [], by decide, by decide, by decide, Or.inl rfl⟩, Or.inl rfl, g!"/v1", 0,
    .cons (t := g!"v1") (u := []) (spelled_self _ (by decide)) (by decide) .nil, rfl⟩, by unfold NamedSegs; decide, by decide⟩

/-- One with a port, a coded space, slashes at the end and a query. -/
example : ApiUrl g!"http" g!"localhost:8080" [g!"my api", g!"v1"] g!"?key=%41" g!"http://localhost:8080/my%20api/v1//?key=%41" :=
  ⟨⟨'h', g!"ttp", rfl, by decide, by decide⟩, ⟨g!"localhost", g!"8080", by decide, by decide, by decide, Or.inr rfl⟩,
    Or.inr ⟨_, rfl, by decide⟩, g!"/my%20api/v1", 2,
    .cons (t := g!"my%20api") (u := g!"/v1")
      (.plain (by unfold UrlChar; decide) (.plain (by unfold UrlChar; decide) (.coded (t := g!"%20") (u := g!"api")
        (.byte (Or.inl rfl) (Or.inl rfl) .nil) (spelled_self _ (by decide))))) (by decide)
      (.cons (t := g!"v1") (u := []) (spelled_self _ (by decide)) (by decide) .nil), rfl⟩

example : (Url.parseRequest g!"http://localhost:8080/my%20api/v1//?key=%41").map (osvEndpoint · g!"GHSA-1") =
    some g!"http://localhost:8080/my%20api/v1/vulns/GHSA-1?key=%41" := by decide +kernel

example : PlainID g!"GHSA-1" := by unfold PlainID; decide

end Osv
