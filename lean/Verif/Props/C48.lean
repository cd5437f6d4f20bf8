import Verif.Lemmas.GoMod
/-!
# C48: go.mod replacements

A directive for all versions of a module is applied to whatever has that name at that moment, including the result of an earlier
directive (`C48_counterexample`).
-/
namespace Osv
open Str Spec

/-- Module paths do not contain `@`, and no module is replaced by two different ones: `go` accepts no other files. -/
def GoModOk (f : GoModFile) : Prop :=
  (∀ m ∈ f.require, '@' ∉ m.path) ∧ (∀ r ∈ f.replace, '@' ∉ r.old.path ∧ '@' ∉ r.new.path) ∧
  ∀ r ∈ f.replace, ∀ s ∈ f.replace, r.old = s.old → r.new = s.new

/-- The full claim. False: `C48_counterexample`. -/
def C48_full : Prop := ∀ (decode : Str → Option GoModFile) (iter : SMap PackageDetails → SMap PackageDetails)
  (order : List PackageDetails → List PackageDetails), (∀ l, (iter l).Perm l) → (∀ l, (order l).Perm l) →
  ∀ (content : Str) (f : GoModFile), decode content = some f → GoModOk f →
  ∃ pkgs, parseGoLock decode iter order (some content) = (pkgs, false) ∧ pkgs.Nodup ∧
    ∀ p, p ∈ pkgs ↔ ∃ m ∈ f.require, ∃ n, GoSelected f.replace m n ∧ GoReported n p

/-- Some module is selected for every required one. -/
theorem C48_selected_exists (replaces : List GoReplace) (m : GoModule) : ∃ n, GoSelected replaces m n := by
  by_cases h1 : ∃ r ∈ replaces, r.old.version ≠ [] ∧ r.old = m
  · obtain ⟨r, hr, h, e⟩ := h1
    exact ⟨_, .version r hr h e⟩
  · have h1' : ∀ s ∈ replaces, s.old.version ≠ [] → s.old ≠ m := fun s hs h e => h1 ⟨s, hs, h, e⟩
    by_cases h2 : ∃ r ∈ replaces, r.old = ⟨m.path, []⟩
    · obtain ⟨r, hr, e⟩ := h2
      exact ⟨_, .all r h1' hr e⟩
    · exact ⟨m, .kept h1' fun s hs e => h2 ⟨s, hs, e⟩⟩

/-- Only one module is selected. -/
theorem C48_selected_unique {replaces : List GoReplace} (h : ∀ r ∈ replaces, ∀ s ∈ replaces, r.old = s.old → r.new = s.new)
    {m n n' : GoModule} (h1 : GoSelected replaces m n) (h2 : GoSelected replaces m n') : n = n' := by
  cases h1 with
  | version r hr hv e =>
    cases h2 with
    | version s hs hv' e' => exact h r hr s hs (e.trans e'.symm)
    | all s hno => exact absurd e (hno r hr hv)
    | kept hno => exact absurd e (hno r hr hv)
  | all r hno hr e =>
    cases h2 with
    | version s hs hv' e' => exact absurd e' (hno s hs hv')
    | all s _ hs e' => exact h r hr s hs (e.trans e'.symm)
    | kept _ hno' => exact absurd e (hno' r hr)
  | kept hno hno' =>
    cases h2 with
    | version s hs hv' e' => exact absurd e' (hno s hs hv')
    | all s _ hs e' => exact absurd e' (hno' s hs)
    | kept => rfl

namespace GoMod

/-- A replacement is not replaced again by a later directive for all versions, unless by the same module. -/
def Unchained (replaces : List GoReplace) : Prop :=
  replaces.Pairwise fun r s => s.old.version = [] → r.new.path = s.old.path → s.new = r.new

theorem selected_mono {pre : List GoReplace} {m n : GoModule} {s : GoReplace} (h : GoSelected pre m n)
    (h1 : s.old.version ≠ [] → s.old ≠ m) (h2 : (∀ r ∈ pre, r.old.version ≠ [] → r.old ≠ m) → (∀ r ∈ pre, r.old ≠ ⟨m.path, []⟩) →
      s.old ≠ ⟨m.path, []⟩) :
    GoSelected (pre ++ [s]) m n := by
  have hv : (∀ r ∈ pre, r.old.version ≠ [] → r.old ≠ m) → ∀ r ∈ pre ++ [s], r.old.version ≠ [] → r.old ≠ m := by
    intro hn r hr
    rcases List.mem_append.1 hr with hr | hr
    · exact hn r hr
    · rw [List.mem_singleton.1 hr]; exact h1
  cases h with
  | version r hr hv e => exact .version r (by simp [hr]) hv e
  | all r hno hr e => exact .all r (hv hno) (by simp [hr]) e
  | kept hno hno' =>
    refine .kept (hv hno) fun r hr => ?_
    rcases List.mem_append.1 hr with hr | hr
    · exact hno' r hr
    · rw [List.mem_singleton.1 hr]; exact h2 hno hno'

/-- The directives select as they should when they are not chained. -/
theorem steps_selected {m : GoModule} (hm : '@' ∉ m.path) (pre : List GoReplace) (hold : ∀ r ∈ pre, '@' ∉ r.old.path)
    (hc : Unchained pre) :
    ∃ n, GoSelected pre m n ∧ steps pre (m.path ++ g!"@" ++ m.version) (goDetails m) = goDetails n := by
  have key : ∀ n (pre : List GoReplace), pre.length = n → (∀ r ∈ pre, '@' ∉ r.old.path) → Unchained pre →
      ∃ n, GoSelected pre m n ∧ steps pre (m.path ++ g!"@" ++ m.version) (goDetails m) = goDetails n := by
    intro n
    induction n with
    | zero =>
      intro pre hl _ _
      obtain rfl := List.length_eq_zero_iff.1 hl
      exact ⟨m, .kept (by simp) (by simp), rfl⟩
    | succ k ih =>
      intro pre hl hold hc
      have hne : pre ≠ [] := by rintro rfl; simp at hl
      obtain ⟨init, s, rfl⟩ : ∃ init s, pre = init ++ [s] := ⟨pre.dropLast, pre.getLast hne, (List.dropLast_concat_getLast hne).symm⟩
      obtain ⟨n, hs, e⟩ := ih init (by simp at hl; exact hl) (fun r hr => hold r (by simp [hr])) (List.pairwise_append.1 hc).1
      have hlast : ∀ r ∈ init, s.old.version = [] → r.new.path = s.old.path → s.new = r.new := fun r hr =>
        (List.pairwise_append.1 hc).2.2 r hr s (by simp)
      have hfold : steps (init ++ [s]) (m.path ++ g!"@" ++ m.version) (goDetails m) =
          step s (m.path ++ g!"@" ++ m.version) (goDetails n) := by
        rw [← e]; unfold steps; rw [List.foldl_append]; rfl
      rw [hfold]
      unfold step
      by_cases hv : s.old.version = []
      · rw [if_pos hv]
        have hso : s.old = ⟨s.old.path, []⟩ := by
          obtain ⟨⟨a, b⟩, c⟩ := s; simp at hv; simp [hv]
        by_cases hp : (goDetails n).name = s.old.path
        · rw [if_pos hp]
          refine ⟨s.new, ?_, rfl⟩
          have hp : n.path = s.old.path := hp
          cases hs with
          | version r hr hv' e' =>
            rw [hlast r hr hv hp]
            exact .version r (by simp [hr]) hv' e'
          | all r hno hr e' =>
            rw [hlast r hr hv hp]
            refine .all r ?_ (by simp [hr]) e'
            intro t ht htv
            rcases List.mem_append.1 ht with ht | ht
            · exact hno t ht htv
            · rw [List.mem_singleton.1 ht] at htv; exact absurd hv htv
          | kept hno hno' =>
            refine .all s ?_ (by simp) (by rw [hso, hp])
            intro t ht htv
            rcases List.mem_append.1 ht with ht | ht
            · exact hno t ht htv
            · rw [List.mem_singleton.1 ht] at htv; exact absurd hv htv
        · rw [if_neg hp]
          refine ⟨n, ?_, rfl⟩
          cases hs with
          | version r hr hv' e' => exact .version r (by simp [hr]) hv' e'
          | all r hno hr e' => exact selected_mono (.all r hno hr e') (fun h => absurd hv h) (fun _ h => absurd e' (h r hr))
          | kept hno hno' =>
            refine selected_mono (.kept hno hno') (fun h => absurd hv h) fun _ _ e' => hp ?_
            rw [e']; rfl
      · rw [if_neg hv]
        by_cases hk : m.path ++ g!"@" ++ m.version = s.old.path ++ g!"@" ++ s.old.version
        · rw [if_pos hk]
          exact ⟨s.new, .version s (by simp) hv (key_inj hk hm (hold s (by simp))).symm, rfl⟩
        · rw [if_neg hk]
          refine ⟨n, selected_mono hs (fun _ e' => hk (by rw [e'])) (fun _ _ e' => hv (by rw [e'])), rfl⟩
  exact key pre.length pre rfl hold hc

end GoMod

variable {decode : Str → Option GoModFile} {iter : SMap PackageDetails → SMap PackageDetails}
  {order : List PackageDetails → List PackageDetails}

/-- The packages of every file: what the directives, applied one after the other, make of the required modules. -/
theorem GoMod.result (hi : ∀ l, (iter l).Perm l) (ho : ∀ l, (order l).Perm l) (content : Str) (f : GoModFile)
    (hd : decode content = some f) (hat : ∀ m ∈ f.require, '@' ∉ m.path) :
    ∃ m pkgs, parseGoLock decode iter order (some content) = (pkgs, false) ∧ pkgs.Perm (m.map (·.2)) ∧
      DetailMap.Adds [] m (fun x => x.1 = x.2.name ++ g!"@" ++ x.2.version ∧
        ∃ m ∈ f.require, x.2 = GoMod.steps f.replace (m.path ++ g!"@" ++ m.version) (goDetails m)) := by
  have hreq := GoMod.require_adds [] f.require
  have hmem := hreq.mem (by
    rintro x y ⟨m, hm, rfl⟩ ⟨n, hn, rfl⟩ e
    rw [GoMod.key_inj e (hat m hm) (hat n hn)])
  refine ⟨_, _, by unfold parseGoLock; rw [Option.bind_some, hd], ho _, (GoMod.dedup_adds _ hi).congr fun x => ?_⟩
  rw [GoMod.replace_loop hi _ _ (hreq.2.2 (by simp))]
  constructor
  · rintro ⟨y, hy, rfl⟩
    obtain ⟨z, hz, rfl⟩ := List.mem_map.1 hy
    obtain ⟨m, hm, rfl⟩ := (hmem z).1 hz
    exact ⟨rfl, m, hm, rfl⟩
  · rintro ⟨e, m, hm, e2⟩
    refine ⟨(m.path ++ g!"@" ++ m.version, x.2), List.mem_map.2 ⟨(_, goDetails m), (hmem _).2 ⟨m, hm, rfl⟩, ?_⟩, ?_⟩
    · rw [e2]
    · obtain ⟨k, d⟩ := x
      dsimp only at e ⊢
      rw [e]

/-- What the steps make of a module. -/
theorem GoMod.steps_applied {m : GoModule} (hm : '@' ∉ m.path) (rs : List GoReplace) (hold : ∀ r ∈ rs, '@' ∉ r.old.path)
    (c : GoModule) : ∃ n, GoApplied m c rs n ∧ GoMod.steps rs (m.path ++ g!"@" ++ m.version) (goDetails c) = goDetails n := by
  induction rs generalizing c with
  | nil => exact ⟨c, .done c, rfl⟩
  | cons r rs ih =>
    have ih := ih (fun s hs => hold s (by simp [hs]))
    have hs : GoMod.steps (r :: rs) (m.path ++ g!"@" ++ m.version) (goDetails c) =
        GoMod.steps rs (m.path ++ g!"@" ++ m.version) (GoMod.step r (m.path ++ g!"@" ++ m.version) (goDetails c)) := rfl
    rw [hs]
    unfold GoMod.step
    by_cases hv : r.old.version = []
    · rw [if_pos hv]
      by_cases hp : (goDetails c).name = r.old.path
      · rw [if_pos hp]
        obtain ⟨n, h1, h2⟩ := ih r.new
        exact ⟨n, .all r hv hp.symm h1, h2⟩
      · rw [if_neg hp]
        obtain ⟨n, h1, h2⟩ := ih c
        exact ⟨n, .skip r (absurd hv) (fun _ e => hp e.symm) h1, h2⟩
    · rw [if_neg hv]
      by_cases hk : m.path ++ g!"@" ++ m.version = r.old.path ++ g!"@" ++ r.old.version
      · rw [if_pos hk]
        obtain ⟨n, h1, h2⟩ := ih r.new
        exact ⟨n, .version r hv (GoMod.key_inj hk hm (hold r (by simp))).symm h1, h2⟩
      · rw [if_neg hk]
        obtain ⟨n, h1, h2⟩ := ih c
        exact ⟨n, .skip r (fun _ e => hk (by rw [e])) (fun h => absurd h hv) h1, h2⟩

/-- Applying the directives in order has one result. -/
theorem C48_applied_unique {m c n n' : GoModule} {rs : List GoReplace} (h : GoApplied m c rs n) (h' : GoApplied m c rs n') :
    n = n' := by
  induction h with
  | done => cases h'; rfl
  | version r hv e _ ih =>
    cases h' with
    | version _ _ _ h => exact ih h
    | all _ hv' => exact absurd hv' hv
    | skip _ h1 => exact absurd e (h1 hv)
  | all r hv e _ ih =>
    cases h' with
    | version _ hv' => exact absurd hv hv'
    | all _ _ _ h => exact ih h
    | skip _ _ h2 => exact absurd e (h2 hv)
  | skip r h1 h2 _ ih =>
    cases h' with
    | version _ hv e => exact absurd e (h1 hv)
    | all _ hv e => exact absurd e (h2 hv)
    | skip _ _ _ h => exact ih h

/-- The result for every file, chained directives or not: the packages are those that the directives, applied in order, make
of the required modules. -/
theorem C48_applied (hi : ∀ l, (iter l).Perm l) (ho : ∀ l, (order l).Perm l) (content : Str) (f : GoModFile)
    (hd : decode content = some f) (hreq : ∀ m ∈ f.require, '@' ∉ m.path)
    (hrep : ∀ r ∈ f.replace, '@' ∉ r.old.path ∧ '@' ∉ r.new.path) :
    ∃ pkgs, parseGoLock decode iter order (some content) = (pkgs, false) ∧ pkgs.Nodup ∧
      ∀ p, p ∈ pkgs ↔ ∃ m ∈ f.require, ∃ n, GoApplied m m f.replace n ∧ GoReported n p := by
  obtain ⟨m, pkgs, e1, e2, e3⟩ := GoMod.result (order := order) hi ho content f hd hreq
  have hsel : ∀ m ∈ f.require, ∀ p, p = GoMod.steps f.replace (m.path ++ g!"@" ++ m.version) (goDetails m) ↔
      ∃ n, GoApplied m m f.replace n ∧ GoReported n p := by
    intro m hm p
    obtain ⟨n, hn, e⟩ := GoMod.steps_applied (hreq m hm) f.replace (fun r hr => (hrep r hr).1) m
    rw [e]
    constructor
    · rintro rfl; exact ⟨n, hn, (GoMod.reported n _).2 rfl⟩
    · rintro ⟨n', hn', hr⟩
      rw [C48_applied_unique hn hn']
      exact (GoMod.reported n' p).1 hr
  have hname : ∀ m c n (rs : List GoReplace), (∀ r ∈ rs, '@' ∉ r.new.path) → '@' ∉ c.path → GoApplied m c rs n →
      '@' ∉ n.path := by
    intro m c n rs hrs hc h
    induction h with
    | done => exact hc
    | version r _ _ _ ih => exact ih (fun s hs => hrs s (by simp [hs])) (hrs r (by simp))
    | all r _ _ _ ih => exact ih (fun s hs => hrs s (by simp [hs])) (hrs r (by simp))
    | skip r _ _ _ ih => exact ih (fun s hs => hrs s (by simp [hs])) hc
  have hform : ∀ x : Str × PackageDetails, (x.1 = x.2.name ++ g!"@" ++ x.2.version ∧
      ∃ m ∈ f.require, x.2 = GoMod.steps f.replace (m.path ++ g!"@" ++ m.version) (goDetails m)) →
      '@' ∉ x.2.name ∧ x.2 = pkg g!"Go" x.2.name x.2.version [] := by
    rintro x ⟨_, m, hm, e⟩
    obtain ⟨n, hn, t, ht, e'⟩ := (hsel m hm x.2).1 e
    rw [e']
    exact ⟨hname m m n _ (fun r hr => (hrep r hr).2) (hreq m hm) hn, rfl⟩
  obtain ⟨h4, h5⟩ := e3.exact (by
    intro x y hx hy e
    have e : x.2.name ++ g!"@" ++ x.2.version = y.2.name ++ g!"@" ++ y.2.version := by rw [← hx.1, ← hy.1]; exact e
    obtain ⟨a, b⟩ := DetailMap.key_inj (d := x.2) (e := y.2) e (hform x hx).1 (hform y hy).1
    rw [(hform x hx).2, (hform y hy).2, a, b]) (by
    intro x y hx hy e
    rw [hx.1, hy.1, e]) e2
  refine ⟨pkgs, e1, h4, fun p => ?_⟩
  rw [h5]
  constructor
  · rintro ⟨k, _, m, hm, e⟩; exact ⟨m, hm, (hsel m hm p).1 e⟩
  · rintro ⟨m, hm, h⟩; exact ⟨p.name ++ g!"@" ++ p.version, rfl, m, hm, (hsel m hm p).2 h⟩

/-- Missing for the full claim: a replacement must not be replaced again by a later directive. -/
theorem C48_partial (hi : ∀ l, (iter l).Perm l) (ho : ∀ l, (order l).Perm l) (content : Str) (f : GoModFile)
    (hd : decode content = some f) (hok : GoModOk f) (hc : GoMod.Unchained f.replace) :
    ∃ pkgs, parseGoLock decode iter order (some content) = (pkgs, false) ∧ pkgs.Nodup ∧
      ∀ p, p ∈ pkgs ↔ ∃ m ∈ f.require, ∃ n, GoSelected f.replace m n ∧ GoReported n p := by
  obtain ⟨h1, h2, h3⟩ := hok
  obtain ⟨m, pkgs, e1, e2, e3⟩ := GoMod.result (order := order) hi ho content f hd h1
  have hsel : ∀ m ∈ f.require, ∀ p, p = GoMod.steps f.replace (m.path ++ g!"@" ++ m.version) (goDetails m) ↔
      ∃ n, GoSelected f.replace m n ∧ GoReported n p := by
    intro m hm p
    obtain ⟨n, hn, e⟩ := GoMod.steps_selected (h1 m hm) f.replace (fun r hr => (h2 r hr).1) hc
    rw [e]
    constructor
    · rintro rfl; exact ⟨n, hn, (GoMod.reported n _).2 rfl⟩
    · rintro ⟨n', hn', hr⟩
      rw [C48_selected_unique h3 hn hn']
      exact (GoMod.reported n' p).1 hr
  have hname : ∀ m ∈ f.require, ∀ n, GoSelected f.replace m n → '@' ∉ n.path := by
    intro m hm n hn
    cases hn with
    | version r hr => exact (h2 r hr).2
    | all r _ hr => exact (h2 r hr).2
    | kept => exact h1 m hm
  have hform : ∀ x : Str × PackageDetails, (x.1 = x.2.name ++ g!"@" ++ x.2.version ∧
      ∃ m ∈ f.require, x.2 = GoMod.steps f.replace (m.path ++ g!"@" ++ m.version) (goDetails m)) →
      '@' ∉ x.2.name ∧ x.2 = pkg g!"Go" x.2.name x.2.version [] := by
    rintro x ⟨_, m, hm, e⟩
    obtain ⟨n, hn, t, ht, e'⟩ := (hsel m hm x.2).1 e
    rw [e']
    exact ⟨hname m hm n hn, rfl⟩
  obtain ⟨h4, h5⟩ := e3.exact (by
    intro x y hx hy e
    have e : x.2.name ++ g!"@" ++ x.2.version = y.2.name ++ g!"@" ++ y.2.version := by rw [← hx.1, ← hy.1]; exact e
    obtain ⟨a, b⟩ := DetailMap.key_inj (d := x.2) (e := y.2) e (hform x hx).1 (hform y hy).1
    rw [(hform x hx).2, (hform y hy).2, a, b]) (by
    intro x y hx hy e
    rw [hx.1, hy.1, e]) e2
  refine ⟨pkgs, e1, h4, fun p => ?_⟩
  rw [h5]
  constructor
  · rintro ⟨k, _, m, hm, e⟩; exact ⟨m, hm, (hsel m hm p).1 e⟩
  · rintro ⟨m, hm, h⟩; exact ⟨p.name ++ g!"@" ++ p.version, rfl, m, hm, (hsel m hm p).2 h⟩

/-- A directive for a module that is neither required nor put in place by another directive has no effect. -/
theorem C48_unrequired (hi : ∀ l, (iter l).Perm l) (ho : ∀ l, (order l).Perm l) (content content' : Str) (f : GoModFile)
    (pre post : List GoReplace) (r : GoReplace) (hd : decode content = some f) (hr : f.replace = pre ++ r :: post)
    (hd' : decode content' = some ⟨f.require, pre ++ post⟩) (hok : GoModOk f) (hc : GoMod.Unchained f.replace)
    (hn : ∀ m ∈ f.require, m.path ≠ r.old.path) :
    (parseGoLock decode iter order (some content)).1.Perm (parseGoLock decode iter order (some content')).1 := by
  have hsub : ∀ s ∈ pre ++ post, s ∈ f.replace := by
    intro s hs
    rw [hr]
    rcases List.mem_append.1 hs with h | h <;> simp [h]
  have hok' : GoModOk ⟨f.require, pre ++ post⟩ :=
    ⟨hok.1, fun s hs => hok.2.1 s (hsub s hs), fun s hs t ht => hok.2.2 s (hsub s hs) t (hsub t ht)⟩
  have hc' : GoMod.Unchained (pre ++ post) := by
    unfold GoMod.Unchained at hc ⊢
    rw [hr] at hc
    exact hc.sublist (List.Sublist.append (List.Sublist.refl _) (List.sublist_cons_self _ _))
  obtain ⟨p1, e1, n1, m1⟩ := C48_partial (order := order) hi ho content f hd hok hc
  obtain ⟨p2, e2, n2, m2⟩ := C48_partial (order := order) hi ho content' _ hd' hok' hc'
  rw [e1, e2]
  refine (List.perm_ext_iff_of_nodup n1 n2).2 fun p => ?_
  rw [m1, m2]
  have hsame : ∀ m ∈ f.require, ∀ n, GoSelected f.replace m n → GoSelected (pre ++ post) m n := by
    intro m hm n h
    have hback : ∀ s ∈ f.replace, s.old.path = m.path → s ∈ pre ++ post := by
      intro s hs e
      rw [hr] at hs
      rcases List.mem_append.1 hs with h | h
      · simp [h]
      · rcases List.mem_cons.1 h with rfl | h
        · exact absurd e.symm (hn m hm)
        · simp [h]
    cases h with
    | version s hs hv e => exact .version s (hback s hs (by rw [e])) hv e
    | all s hno hs e => exact .all s (fun t ht => hno t (hsub t ht)) (hback s hs (by rw [e])) e
    | kept hno hno' => exact .kept (fun t ht => hno t (hsub t ht)) (fun t ht => hno' t (hsub t ht))
  constructor
  · rintro ⟨m, hm, n, h, h'⟩; exact ⟨m, hm, n, hsame m hm n h, h'⟩
  · rintro ⟨m, hm, n, h, h'⟩
    obtain ⟨n', hn'⟩ := C48_selected_exists f.replace m
    rw [C48_selected_unique hok'.2.2 h (hsame m hm n' hn')] at h'
    exact ⟨m, hm, n', hn', h'⟩

/-- A file that cannot be read or decoded is an error. -/
theorem C48_error (content : Option Str) (h : content.bind decode = none) : parseGoLock decode iter order content = ([], true) := by
  unfold parseGoLock; rw [h]

/-- `require a v1.0.0`, `replace a => b v1.0.0`, `replace b => c v1.0.0`. -/
def C48_witness : GoModFile :=
  ⟨[⟨g!"a", g!"v1.0.0"⟩], [⟨⟨g!"a", []⟩, ⟨g!"b", g!"v1.0.0"⟩⟩, ⟨⟨g!"b", []⟩, ⟨g!"c", g!"v1.0.0"⟩⟩]⟩

/-- The program reports `c`, which the build does not use, instead of `b`. -/
theorem C48_counterexample : ¬ C48_full := by
  intro h
  obtain ⟨pkgs, h1, _, h2⟩ := h (fun _ => some C48_witness) id id (fun _ => List.Perm.refl _) (fun _ => List.Perm.refl _) [] _ rfl
    ⟨by simp [C48_witness], by simp [C48_witness], by simp [C48_witness]⟩
  have h3 := (h2 (pkg g!"Go" g!"b" g!"1.0.0" [])).2 ⟨⟨g!"a", g!"v1.0.0"⟩, by simp [C48_witness], ⟨g!"b", g!"v1.0.0"⟩,
    .all ⟨⟨g!"a", []⟩, ⟨g!"b", g!"v1.0.0"⟩⟩ (by simp [C48_witness]) (by simp [C48_witness]) rfl, ⟨g!"1.0.0", Or.inl rfl, rfl⟩⟩
  have : parseGoLock (fun _ => some C48_witness) id id (some []) = ([pkg g!"Go" g!"c" g!"1.0.0" []], false) := by decide +kernel
  rw [this] at h1
  injection h1 with h1
  subst h1
  revert h3
  decide

/-- Requirements with all kinds of directives. -/
def C48_sample : GoModFile :=
  ⟨[⟨g!"a", g!"v1.0.0"⟩, ⟨g!"a", g!"v2.0.0"⟩, ⟨g!"b", g!"v1.0.0"⟩, ⟨g!"c", g!"v1.0.0"⟩],
    [⟨⟨g!"a", []⟩, ⟨g!"a", g!"v1.5.0"⟩⟩, ⟨⟨g!"a", g!"v2.0.0"⟩, ⟨g!"fork", g!"v2.0.1"⟩⟩, ⟨⟨g!"b", []⟩, ⟨g!"../b", []⟩⟩,
      ⟨⟨g!"d", []⟩, ⟨g!"e", g!"v1.0.0"⟩⟩]⟩

-- the hypotheses of `C48_applied` are met by the chained file
example : (∀ m ∈ C48_witness.require, '@' ∉ m.path) ∧ ∀ r ∈ C48_witness.replace, '@' ∉ r.old.path ∧ '@' ∉ r.new.path := by decide
-- the hypotheses of `C48_partial` and `C48_unrequired` can be met
example : GoModOk C48_sample ∧ GoMod.Unchained C48_sample.replace := by
  refine ⟨⟨by decide, by decide, by decide⟩, by unfold GoMod.Unchained; decide⟩
example : ∀ m ∈ C48_sample.require, m.path ≠ g!"d" := by decide
example : parseGoLock (fun _ => some C48_sample) id id (some []) =
    ([pkg g!"Go" g!"a" g!"1.5.0" [], pkg g!"Go" g!"fork" g!"2.0.1" [], pkg g!"Go" g!"../b" [] [], pkg g!"Go" g!"c" g!"1.0.0" []], false) := by
  decide +kernel

end Osv
