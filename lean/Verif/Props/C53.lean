import Verif.Lemmas.PnpmRule
/-!
# C53: pnpm dependency paths

Fails as stated: behind `@`, a scoped peer makes the package vanish (`C53_counterexample`), a nested peer gives a wrong name
and a wrong version (`C53_nested`), build metadata makes it vanish (`C53_build`), and a path that ends within a scope panics
(`C53_panic_iff`).
-/
namespace Osv
open Str Spec

/-- The full claim: every package with a well-formed key is reported with its name, version and commit, in the order of the
iteration, and nothing else. -/
def C53_full : Prop := ∀ (decode : Str → Option (Option PnpmLockfile)) (iter : SMap PnpmLockPackage → SMap PnpmLockPackage)
    (c : Str) (l : PnpmLockfile), decode c = some (some l) →
    (∀ x ∈ iter l.packages, ∃ n v, PnpmRead l.isNine PnpmPath x.1 n v) →
    ∃ ds, parsePnpmLock decode iter (some c) = some (ds, false) ∧ Entries (PnpmEntry l.isNine PnpmPath) (iter l.packages) ds

theorem C53_counterexample : ¬ C53_full := by
  intro h
  have hr : PnpmRead false PnpmPath g!"/foo@1.0.0(@scope/peer@2.0.0)" g!"foo" g!"1.0.0" := by
    refine .inr ⟨?_, .inr ⟨rfl, .at [] g!"foo" g!"1.0.0" g!"(@scope/peer@2.0.0)" (by simp) (.inl ?_) ?_ (.inr ⟨_, rfl⟩)⟩⟩
    · rintro ⟨r, hr⟩; simp at hr
    · exact ⟨by simp, by decide⟩
    · exact ⟨⟨'1', _, rfl, by decide⟩, by decide⟩
  obtain ⟨ds, h1, h2⟩ := h (fun _ => some (some ⟨false, [(g!"/foo@1.0.0(@scope/peer@2.0.0)", {})]⟩)) id [] _ rfl (by
    intro x hx
    simp only [id, List.mem_singleton] at hx
    subst hx
    exact ⟨_, _, hr⟩)
  have : ds = [] := by
    have h3 : parsePnpmLock (fun _ => some (some ⟨false, [(g!"/foo@1.0.0(@scope/peer@2.0.0)", {})]⟩)) id (some []) =
      some ([], false) := by decide +kernel
    rw [h3] at h1
    simpa using h1.symm
  subst this
  cases h2 with
  | skip h =>
    exact h (pkg g!"npm" g!"foo" g!"1.0.0" []) ⟨_, _, _, _, _, hr, .inr ⟨rfl, rfl⟩, .inr ⟨rfl, rfl⟩, by simp, by simp,
      (Pnpm.pnpmCommit_iff _ _).1 (by decide +kernel), rfl⟩

/-- A nested peer: the package `foo` in version `1.0.0` becomes `foo@1.0.0(bar` in version `2.0.0`. -/
theorem C53_nested : PnpmPath g!"/foo@1.0.0(bar@2.0.0(baz@3.0.0))" g!"foo" g!"1.0.0" ∧
    extractPnpm false g!"/foo@1.0.0(bar@2.0.0(baz@3.0.0))" = some (some (g!"foo@1.0.0(bar", g!"2.0.0")) := by
  refine ⟨.at [] g!"foo" g!"1.0.0" g!"(bar@2.0.0(baz@3.0.0))" (by simp) (.inl ⟨by simp, by decide⟩)
    ⟨⟨'1', _, rfl, by decide⟩, by decide⟩ (.inr ⟨_, rfl⟩), by decide +kernel⟩

/-- Build metadata: the package vanishes. -/
theorem C53_build : PnpmPath g!"/foo@1.0.0+b1" g!"foo" g!"1.0.0+b1" ∧
    extractPnpm false g!"/foo@1.0.0+b1" = some (some ([], [])) := by
  refine ⟨.at [] g!"foo" g!"1.0.0+b1" [] (by simp) (.inl ⟨by simp, by decide⟩)
    ⟨⟨'1', _, rfl, by decide⟩, by decide⟩ (.inl rfl), by decide +kernel⟩

theorem Pnpm.loop_entries {nine : Bool} {read : Str → Str → Str → Prop}
    (hread : ∀ key n v, read key n v → extractPnpm nine key = some (some (n, v))) : ∀ (ps : SMap PnpmLockPackage),
    (∀ x ∈ ps, ∃ n v, read x.1 n v) → ∃ ds, pnpmLoop nine ps = some (some ds) ∧ Entries (PnpmEntryBy read) ps ds := by
  intro ps
  induction ps with
  | nil => intro _; exact ⟨[], rfl, .nil⟩
  | cons x ps ih =>
    intro h
    obtain ⟨ds, h1, h2⟩ := ih fun y hy => h y (by simp [hy])
    obtain ⟨n, v, hr⟩ := h x (by simp)
    have he := hread _ _ _ hr
    obtain ⟨s, p⟩ := x
    have hu : ∀ n' v', read s n' v' → n' = n ∧ v' = v := by
      intro n' v' h'
      have := (hread _ _ _ h').symm.trans he
      simpa using this
    simp only [pnpmLoop, he, h1]
    by_cases hc : (if p.name ≠ [] then p.name else n) = [] ∨ (if p.version ≠ [] then p.version else v) = []
    · refine ⟨ds, by rw [if_pos (by simpa using hc)], .skip ?_ h2⟩
      rintro b ⟨n', v', name, version, commit, g1, g2, g3, g4, g5, _, _⟩
      obtain ⟨rfl, rfl⟩ := hu _ _ g1
      rw [Pnpm.firstOf_iff] at g2 g3
      rw [g2, g3] at hc
      exact hc.elim g4 g5
    · refine ⟨_, by rw [if_neg (by simpa using hc)]; rfl, .keep ?_ h2⟩
      rw [not_or] at hc
      exact ⟨n, v, _, _, _, hr, Pnpm.firstOf_iff.2 rfl, Pnpm.firstOf_iff.2 rfl, hc.1, hc.2,
        (Pnpm.pnpmCommit_iff _ _).1 rfl, rfl⟩

theorem C53_loop {nine : Bool} (ps : SMap PnpmLockPackage) (h : ∀ x ∈ ps, ∃ n v, PnpmRead nine PnpmSimplePath x.1 n v) :
    ∃ ds, pnpmLoop nine ps = some (some ds) ∧ Entries (PnpmEntry nine PnpmSimplePath) ps ds :=
  Pnpm.loop_entries (fun _ _ _ => Pnpm.extract_read) ps h

/-- The claim for keys of version 9, for paths `/name/version` with any peers, and for paths `/name@version` without build
metadata whose peers are neither nested nor scoped. Missing: the other paths behind `@`, for which the claim is false. -/
theorem C53_partial (decode : Str → Option (Option PnpmLockfile)) (iter : SMap PnpmLockPackage → SMap PnpmLockPackage)
    (c : Str) (l : PnpmLockfile) (hd : decode c = some (some l))
    (h : ∀ x ∈ iter l.packages, ∃ n v, PnpmRead l.isNine PnpmSimplePath x.1 n v) :
    ∃ ds, parsePnpmLock decode iter (some c) = some (ds, false) ∧
      Entries (PnpmEntry l.isNine PnpmSimplePath) (iter l.packages) ds := by
  obtain ⟨ds, h1, h2⟩ := C53_loop _ h
  refine ⟨ds, ?_, h2⟩
  simp [parsePnpmLock, hd, h1]

/-- One key: the name and the version are those written. -/
theorem C53_key {nine : Bool} {key n v : Str} (h : PnpmRead nine PnpmSimplePath key n v) :
    extractPnpm nine key = some (some (n, v)) := Pnpm.extract_read h

/-- The commit of a package: that of the tarball if it is one of GitHub, otherwise the one written. -/
theorem C53_commit (p : PnpmLockPackage) (c : Str) : pnpmCommit p = c ↔ PnpmCommit p c := Pnpm.pnpmCommit_iff p c

/-- Exactly the paths without a slash are refused. -/
theorem C53_invalid_iff (nine : Bool) (path : Str) :
    extractPnpm nine path = some none ↔ nine = false ∧ ¬ IsFile path ∧ '/' ∉ path := by
  rw [← Pnpm.isFile_iff]
  unfold extractPnpm
  by_cases hf : hasPrefix path g!"file:" = true
  · rw [if_pos hf]; simp [hf]
  · rw [if_neg hf]
    cases nine with
    | true => simp
    | false =>
      simp only [Bool.false_eq_true, if_false, hf, not_false_eq_true, true_and]
      by_cases hs : '/' ∈ path
      · obtain ⟨a, b, e, ha⟩ := Pnpm.first_slash hs
        subst e
        rw [splitChar_append _ _ _ ha]
        cases hsp : splitChar '/' b with
        | nil => exact absurd hsp (splitChar_ne_nil _ _)
        | cons p parts =>
          simp only [hs, not_true, iff_false]
          by_cases hp : hasPrefix p g!"@" = true
          · simp only [hp, if_true]
            cases parts with
            | nil => simp
            | cons q parts =>
              simp only [Option.map_some, Option.some.injEq]
              split <;> split <;> simp
          · rw [if_neg hp]
            simp only [Option.map_some, Option.some.injEq]
            split <;> split <;> simp
      · rw [splitChar_of_not_mem _ _ hs]
        simp [hs]

/-- Exactly the paths whose last slash opens a scope, with no slash but this one, panic. -/
theorem C53_panic_iff (nine : Bool) (path : Str) : extractPnpm nine path = none ↔
    nine = false ∧ ¬ IsFile path ∧ ∃ host scope, '/' ∉ host ∧ '/' ∉ scope ∧ path = host ++ g!"/@" ++ scope := by
  rw [← Pnpm.isFile_iff]
  unfold extractPnpm
  by_cases hf : hasPrefix path g!"file:" = true
  · rw [if_pos hf]; simp [hf]
  · rw [if_neg hf]
    cases nine with
    | true => simp
    | false =>
      simp only [Bool.false_eq_true, if_false, hf, not_false_eq_true, true_and]
      by_cases hs : '/' ∈ path
      · obtain ⟨a, b, e, ha⟩ := Pnpm.first_slash hs
        have key : (∃ host scope, '/' ∉ host ∧ '/' ∉ scope ∧ path = host ++ g!"/@" ++ scope) ↔ '/' ∉ b ∧ ∃ x, b = '@' :: x := by
          constructor
          · rintro ⟨host, scope, h1, h2, e'⟩
            have := splitChar_append '/' host ('@' :: scope) h1
            rw [show host ++ '/' :: '@' :: scope = path by rw [e']; simp, e, splitChar_append _ _ _ ha] at this
            simp only [List.cons.injEq] at this
            have hb : b = '@' :: scope := by
              rw [← join_splitChar '/' b, this.2, join_splitChar]
            subst hb
            exact ⟨by simp [h2], _, rfl⟩
          · rintro ⟨h1, x, rfl⟩
            exact ⟨a, x, ha, fun hm => h1 (by simp [hm]), by rw [e]; simp⟩
        rw [key]
        subst e
        rw [splitChar_append _ _ _ ha]
        have hhp : ∀ p : Str, hasPrefix p g!"@" = true ↔ ∃ x, p = '@' :: x := fun p => hasPrefix_iff _ _
        by_cases hb : '/' ∈ b
        · obtain ⟨p, q, rfl, hp⟩ := Pnpm.first_slash hb
          rw [splitChar_append _ _ _ hp]
          cases hq : splitChar '/' q with
          | nil => exact absurd hq (splitChar_ne_nil _ _)
          | cons q0 qs =>
            simp only [hb, not_true, false_and, iff_false]
            by_cases h : hasPrefix p g!"@" = true <;> simp [h]
        · rw [splitChar_of_not_mem _ _ hb]
          by_cases h : hasPrefix b g!"@" = true
          · simp only [h, if_true, Option.map_none, true_iff]
            exact ⟨hb, (hhp b).1 h⟩
          · have h' := mt (hhp b).2 h
            simp only [h, Bool.false_eq_true, if_false, Option.map_some, reduceCtorEq, false_iff]
            exact fun h => h' h.2
      · rw [splitChar_of_not_mem _ _ hs]
        simp only [reduceCtorEq, false_iff]
        rintro ⟨host, scope, _, _, rfl⟩
        simp at hs

/-- An empty file has no packages. -/
theorem C53_empty (decode : Str → Option (Option PnpmLockfile)) (iter : SMap PnpmLockPackage → SMap PnpmLockPackage)
    (hi : iter [] = []) (c : Str) (hd : decode c = some none) : parsePnpmLock decode iter (some c) = some ([], false) := by
  simp [parsePnpmLock, hd, hi, pnpmLoop]

/-- A file that cannot be read or decoded is an error. -/
theorem C53_error (decode : Str → Option (Option PnpmLockfile)) (iter : SMap PnpmLockPackage → SMap PnpmLockPackage)
    (content : Option Str) (hd : content.bind decode = none) : parsePnpmLock decode iter content = some ([], true) := by
  simp [parsePnpmLock, hd]

/-- The rule for every key. -/
theorem C53_rule (nine : Bool) (key n v : Str) : extractPnpm nine key = some (some (n, v)) ↔ PnpmRule nine key n v :=
  Pnpm.rule nine key n v

/-- Every key is read by the rule, or refused, or crashes the parser, and only one of these. -/
theorem C53_trichotomy (nine : Bool) (key : Str) : (∃ n v, PnpmRule nine key n v) ∨
    (nine = false ∧ ¬ IsFile key ∧ '/' ∉ key) ∨
    (nine = false ∧ ¬ IsFile key ∧ ∃ host scope, '/' ∉ host ∧ '/' ∉ scope ∧ key = host ++ g!"/@" ++ scope) := by
  rw [← C53_invalid_iff, ← C53_panic_iff]
  simp only [← C53_rule]
  match extractPnpm nine key with
  | none => simp
  | some none => simp
  | some (some (n, v)) => exact .inl ⟨n, v, rfl⟩

theorem C53_rule_unique {nine : Bool} {key n v n' v' : Str} (h : PnpmRule nine key n v) (h' : PnpmRule nine key n' v') :
    n = n' ∧ v = v' := by
  have := ((C53_rule ..).2 h).symm.trans ((C53_rule ..).2 h')
  simpa using this

/-- In every file with no key that is refused or crashes the parser, the packages are those that the rule gives. -/
theorem C53_reported (decode : Str → Option (Option PnpmLockfile)) (iter : SMap PnpmLockPackage → SMap PnpmLockPackage)
    (c : Str) (l : PnpmLockfile) (hd : decode c = some (some l)) (h : ∀ x ∈ iter l.packages, ∃ n v, PnpmRule l.isNine x.1 n v) :
    ∃ ds, parsePnpmLock decode iter (some c) = some (ds, false) ∧ Entries (PnpmEntryBy (PnpmRule l.isNine)) (iter l.packages) ds := by
  obtain ⟨ds, h1, h2⟩ := Pnpm.loop_entries (fun _ _ _ => (C53_rule ..).2) _ h
  refine ⟨ds, ?_, h2⟩
  simp [parsePnpmLock, hd, h1]

/-- One path without a slash, and no panic: the whole file is an error. -/
theorem C53_refused (decode : Str → Option (Option PnpmLockfile)) (iter : SMap PnpmLockPackage → SMap PnpmLockPackage)
    (c : Str) (l : PnpmLockfile) (hd : decode c = some (some l)) (hn : ∀ x ∈ iter l.packages, extractPnpm l.isNine x.1 ≠ none)
    (h : ∃ x ∈ iter l.packages, l.isNine = false ∧ ¬ IsFile x.1 ∧ '/' ∉ x.1) :
    parsePnpmLock decode iter (some c) = some ([], true) := by
  have key : ∀ ps : SMap PnpmLockPackage, (∀ x ∈ ps, extractPnpm l.isNine x.1 ≠ none) →
      (∃ x ∈ ps, l.isNine = false ∧ ¬ IsFile x.1 ∧ '/' ∉ x.1) → pnpmLoop l.isNine ps = some none := by
    intro ps
    induction ps with
    | nil => rintro _ ⟨x, hx, _⟩; cases hx
    | cons y ps ih =>
      rintro hn ⟨x, hx, hbad⟩
      obtain ⟨s, p⟩ := y
      rcases List.mem_cons.1 hx with rfl | hx
      · simp only [pnpmLoop, (C53_invalid_iff _ _).2 hbad]
      · have := ih (fun z hz => hn z (by simp [hz])) ⟨x, hx, hbad⟩
        unfold pnpmLoop
        cases he : extractPnpm l.isNine s with
        | none => exact absurd he (hn (s, p) (by simp))
        | some r =>
          cases r with
          | none => rfl
          | some nv =>
            simp only [this, Option.map_some, Option.map_none, ite_self]
  simp [parsePnpmLock, hd, key _ hn h]

/-- The last reading of a text with nested peers. -/
example : LastAtVersion g!"foo@1.0.0(bar@2.0.0(baz@3.0.0))" g!"foo@1.0.0(bar" g!"2.0.0" := Pnpm.read_iff.1 ⟨by decide +kernel, by decide⟩

example : PnpmRule false g!"/foo@1.0.0(bar@2.0.0(baz@3.0.0))" g!"foo@1.0.0(bar" g!"2.0.0" := (C53_rule ..).1 C53_nested.2

example : PnpmRead false PnpmSimplePath g!"/@babel/core@7.1.0(react@18.2.0)(vue@3.0.0)" g!"@babel/core" g!"7.1.0" := by
  refine .inr ⟨?_, .inr ⟨rfl, .at [] g!"@babel/core" g!"7.1.0" g!"(react@18.2.0)(vue@3.0.0)" (by simp)
    (.inr ⟨g!"babel", g!"core", ⟨by simp, by decide⟩, ⟨by simp, by decide⟩, rfl⟩) ⟨⟨'7', _, rfl, by decide⟩, by decide⟩ (by decide)
    (.cons g!"react@18.2.0" g!"(vue@3.0.0)" (by decide) (.cons g!"vue@3.0.0" [] (by decide) .nil))⟩⟩
  rintro ⟨r, hr⟩; simp at hr

example : PnpmRead false PnpmSimplePath g!"registry/foo/1.0.0+b_react@18.2.0" g!"foo" g!"1.0.0+b" := by
  refine .inr ⟨?_, .inr ⟨rfl, .slash g!"registry" g!"foo" g!"1.0.0+b" g!"_react@18.2.0" (by decide)
    (.inl ⟨by simp, by decide⟩) ⟨⟨'1', _, rfl, by decide⟩, by decide⟩ (.inr ⟨_, .inl rfl⟩)⟩⟩
  rintro ⟨r, hr⟩; simp at hr

example : PnpmRead true PnpmSimplePath g!"@babel/core@7.1.0" g!"@babel/core" g!"7.1.0" := by
  refine .inr ⟨?_, .inl ⟨rfl, .inr ⟨g!"babel", g!"core", ⟨by simp, by decide⟩, ⟨by simp, by decide⟩, rfl⟩, by decide, rfl⟩⟩
  rintro ⟨r, hr⟩; simp at hr

example : extractPnpm false g!"/@foo" = none :=
  (C53_panic_iff _ _).2 ⟨rfl, by rintro ⟨r, hr⟩; simp at hr, [], g!"foo", by simp, by decide, rfl⟩

end Osv
