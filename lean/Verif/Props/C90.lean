import Verif.Props.C89
/-!
# C90 Reports are about what is written in the lockfiles

The other direction of C89: every package in a result is written in the lockfile of the result, which is one of those that were asked for.
-/
namespace Osv
open Spec Str Spec.Markup

/-- The file at `path` is of the format `name` in the form in which the format is read exactly; what it holds does not matter. -/
inductive Legible (P : ParserEnv) (path : Str) : Str → Prop
  | bun {content : Str} {doc packages : JMembers} : P.file path = some content → JsoncDoc (.obj doc) content →
      PlainKeys [g!"lockfileVersion", g!"packages"] doc → Member doc g!"packages" (.obj packages) → DistinctKeys packages →
      (∀ v, Member doc g!"lockfileVersion" v → IsInt v) →
      (∀ k v, Member packages k v → ∃ e l, v = .arr (.cons e l) ∧ ∀ lit, NumberIn lit v → P.isFloat lit = true) →
      Legible P path g!"bun.lock"
  | toml {content name : Str} {n : TNode} : name ∈ [g!"Cargo.lock", g!"poetry.lock", g!"pdm.lock", g!"uv.lock", g!"pylock.toml"] →
      P.file path = some content → P.toml content = some n → TPlain n → Legible P path name
  | composer {content : Str} {packages dev : List JVal} : P.file path = some content → ComposerFile content packages dev →
      Legible P path g!"composer.lock"
  | renv {content : Str} {packages : JMembers} : P.file path = some content → RenvFile content packages → Legible P path g!"renv.lock"
  | nuget {content : Str} {frameworks : JMembers} : P.file path = some content → NuGetFile content g!"1" frameworks →
      (∀ p, NuGetEntry frameworks p → '@' ∉ p.name) → Legible P path g!"packages.lock.json"
  | pipenv {content : Str} {default develop : JMembers} : P.file path = some content → PipenvFile content default develop →
      (∀ name version, PipenvListed default develop name version → version = [] ∨ ∃ v, version = g!"==" ++ v) →
      (∀ name version, PipenvListed default develop name version → '@' ∉ name) → Legible P path g!"Pipfile.lock"
  | npmOne {content : Str} {deps : JMembers} : P.file path = some content → NpmV1File content deps →
      (∀ name version p, NpmJsonDep deps name version → NpmEntry tryExtractCommit name version p → NpmName p.name) →
      (∀ name version p name' version' p', NpmJsonDep deps name version → NpmEntry tryExtractCommit name version p →
        NpmJsonDep deps name' version' → NpmEntry tryExtractCommit name' version' p' → p.name = p'.name →
        p.commit ≠ [] → p'.commit = [] → version' ≠ p.commit) → Legible P path g!"package-lock.json"
  | npmTwo {content : Str} {packages : JMembers} : P.file path = some content → NpmV2File content packages →
      (∀ at_ version resolved, NpmJsonPackage packages at_ [] version resolved → ∃ segments, NpmPath at_ segments) →
      (∀ at_ name version resolved p, NpmJsonPackage packages at_ name version resolved →
        NpmPackageEntry tryExtractCommit at_ name version resolved p → NpmName p.name) →
      (∀ at_ name version resolved p at_' name' version' resolved' p',
        NpmJsonPackage packages at_ name version resolved → NpmPackageEntry tryExtractCommit at_ name version resolved p →
        NpmJsonPackage packages at_' name' version' resolved' → NpmPackageEntry tryExtractCommit at_' name' version' resolved' p' →
        p.name = p'.name → p.commit ≠ [] →
        (p'.commit = p.commit → p'.version = p.version) ∧ (p'.commit = [] → p'.version ≠ p.commit)) →
      Legible P path g!"package-lock.json"
  | pnpm {content : Str} {n : YNode} {nine : Bool} : P.file path = some content →
      P.yaml content = some (some n) → ¬ YNull n → (∀ s, YText n [g!"lockfileVersion"] s → P.pnpmNine s = some nine) →
      (∀ k v, YAt n [g!"packages", k] v → ∃ name version, PnpmRule nine k name version) → Legible P path g!"pnpm-lock.yaml"
  | pubspec {content : Str} {n : YNode} : P.file path = some content → P.yaml content = some (some n) → Legible P path g!"pubspec.lock"
  | pom {content : Str} {kids : List XNode} : P.file path = some content →
      Document g!"project" kids content → (∀ n v, writtenProperty kids n = some v → '\n' ∉ v) →
      (∀ k, k ∈ elementsAt [g!"dependencies", g!"dependency"] kids ∨
        k ∈ elementsAt [g!"dependencyManagement", g!"dependencies", g!"dependency"] kids → '\n' ∉ (writtenDependency k).version) →
      Legible P path g!"pom.xml"
  | go {content : Str} {f : GoModFile} : P.file path = some content → P.gomod content = some f →
      GoModOk f → GoMod.Unchained f.replace → Legible P path g!"go.mod"
  | lines {name : Str} :
      name ∈ [g!"Gemfile.lock", g!"yarn.lock", g!"mix.lock", g!"gradle.lockfile", g!"buildscript-gradle.lockfile"] → Legible P path name
  | requirements {dom : List Str} : (∀ p, P.file p ≠ none → p ∈ dom) → dom.length + 2 ≤ P.reqDepth →
      (∀ p d, IncludeReach P.file path p → Requires P.file p d → '@' ∉ d.name) → Legible P path g!"requirements.txt"

namespace Legible

theorem of_entries {α β : Type} {R : α → β → Prop} {items : List α} {out : List β} (h : Entries R items out) {b : β} (hb : b ∈ out) :
    ∃ x ∈ items, R x b := by
  induction h with
  | nil => cases hb
  | keep hr _ ih =>
    rcases List.mem_cons.1 hb with rfl | hb
    · exact ⟨_, List.mem_cons_self, hr⟩
    · obtain ⟨x, h1, h2⟩ := ih hb
      exact ⟨x, List.mem_cons_of_mem _ h1, h2⟩
  | skip hr _ ih =>
    obtain ⟨x, h1, h2⟩ := ih hb
    exact ⟨x, List.mem_cons_of_mem _ h1, h2⟩

theorem of_list {α : Type} {R : α → PackageDetails → Prop} {ps qs : List PackageDetails} {items : List α} {p : PackageDetails}
    {r : Option (List PackageDetails × Bool)} (h : r = some (ps, false)) (h' : r = some (qs, false)) (he : Entries R items qs)
    (hp : p ∈ ps) : ∃ x ∈ items, R x p := by
  rw [h] at h'; cases h'; exact of_entries he hp

theorem of_toml {Shape : TNode → Prop} {Says : TNode → PackageDetails → Prop} {n : TNode} {k : Str} {p : PackageDetails}
    {ps : List PackageDetails} {r : Option (List PackageDetails × Bool)} (h : r = some (ps, false)) (hp : p ∈ ps)
    (h' : (Shape n → ∃ ps items, r = some (ps, false) ∧ TItems n k items ∧ Entries Says items ps) ∧ (¬ Shape n → r = some ([], true))) :
    ∃ items, TEntry n k (.arr items) ∧ ∃ x ∈ items, Says x p := by
  by_cases hsh : Shape n
  · obtain ⟨qs, items, h1, h2, h3⟩ := h'.1 hsh
    obtain ⟨x, hx, hs⟩ := of_list h h1 h3 hp
    rcases h2 with h2 | ⟨-, rfl⟩
    · exact ⟨items, h2, x, hx, hs⟩
    · cases hx
  · rw [h'.2 hsh] at h; cases h

theorem of_eq {ps qs : List PackageDetails} {p : PackageDetails} {r : Option (List PackageDetails × Bool)} (h : r = some (ps, false))
    (h' : r = some (qs, false)) (hp : p ∈ ps) : p ∈ qs := by
  rw [h] at h'; cases h'; exact hp

end Legible

/-- Every package that a parser returns is written in the file. -/
theorem C90_written {P : ParserEnv} (hP : FairOrders P) {path name : Str} (h : Legible P path name) {ps : List PackageDetails}
    (hr : parseFile P name path = some (ps, false)) {p : PackageDetails} (hp : p ∈ ps) :
    ∃ entry, Declares P path name entry ∧ entry p := by
  cases h with
  | bun hc h1 h2 h3 h4 h5 h6 =>
    obtain ⟨qs, items, e, hperm, he⟩ := C78_bun hP hc h1 h2 h3 h4 h5 h6
    obtain ⟨x, hx, hs⟩ := Legible.of_list hr e he hp
    exact ⟨_, .bun hc h1 h2 h3 h4 h5 h6 (hperm.mem_iff.1 hx), hs⟩
  | toml hn hc ht hpl =>
    simp only [List.mem_cons, List.not_mem_nil, or_false] at hn
    obtain rfl | rfl | rfl | rfl | rfl := hn
    · obtain ⟨items, hk, x, hx, hs⟩ := Legible.of_toml hr hp (C78_cargo hc ht hpl)
      exact ⟨_, .cargo hc ht hpl hk hx, hs⟩
    · obtain ⟨items, hk, x, hx, hs⟩ := Legible.of_toml hr hp (C78_poetry hc ht hpl)
      exact ⟨_, .poetry hc ht hpl hk hx, hs⟩
    · obtain ⟨items, hk, x, hx, hs⟩ := Legible.of_toml hr hp (C78_pdm hc ht hpl)
      exact ⟨_, .pdm hc ht hpl hk hx, hs⟩
    · obtain ⟨items, hk, x, hx, hs⟩ := Legible.of_toml hr hp (C78_uv hc ht hpl)
      exact ⟨_, .uv hc ht hpl hk hx, hs⟩
    · obtain ⟨items, hk, x, hx, hs⟩ := Legible.of_toml hr hp (C78_pylock hc ht hpl)
      exact ⟨_, .pylock hc ht hpl hk hx, hs⟩
  | composer hc hf =>
    obtain ⟨qs, e, he⟩ := C78_composer (P := P) (path := path) hc hf
    obtain ⟨x, hx, hs⟩ := Legible.of_list hr e he hp
    exact ⟨_, .composer hc hf hx, hs⟩
  | renv hc hf =>
    obtain ⟨qs, items, e, hperm, he⟩ := C78_renv hP hc hf
    obtain ⟨x, hx, hs⟩ := Legible.of_list hr e he hp
    exact ⟨_, .renv hc hf (hperm.mem_iff.1 hx), hs⟩
  | nuget hc hf ha =>
    obtain ⟨qs, e, -, he⟩ := C78_nuget hP hc hf ha
    exact ⟨_, .nuget hc hf ha ((he _).1 (Legible.of_eq hr e hp)), rfl⟩
  | pipenv hc hf hv ha =>
    obtain ⟨qs, e, -, he⟩ := C78_pipenv hP hc hf hv ha
    exact ⟨_, .pipenv hc hf hv ha ((he _).1 (Legible.of_eq hr e hp)), rfl⟩
  | npmOne hc hf hn hcm =>
    obtain ⟨name, version, h1, h2⟩ := (C78_npm_v1 hP hc hf hn hcm hr _).1 hp
    exact ⟨_, .npmOne hc hf hn hcm h1 h2, rfl⟩
  | npmTwo hc hf hpt hn hcm =>
    obtain ⟨at_, name, version, resolved, h1, h2⟩ := (C78_npm_v2_exact hP hc hf hpt hn hcm hr _).1 hp
    exact ⟨_, .npmTwo hc hf hpt hn hcm h1 h2, rfl⟩
  | @pnpm content n nine hc hy h0 hv hk =>
    obtain ⟨s, hsv⟩ : ∃ s, YText n [g!"lockfileVersion"] s := by
      by_cases h : ∃ t, YAt n [g!"lockfileVersion"] (.scalar t false)
      · obtain ⟨t, h⟩ := h; exact ⟨t, .inl h⟩
      · exact ⟨[], .inr ⟨fun t ht => h ⟨t, ht⟩, rfl⟩⟩
    by_cases hsh : PnpmShape n
    · obtain ⟨l, hl, hmain⟩ := C78_pnpm_rule hP hc hy h0 hsh ⟨s, hsv, by rw [hv s hsv]; rfl⟩
      have hnine : l.isNine = nine := by
        obtain ⟨t, ht, e⟩ := hl.version
        rw [hv t ht] at e; cases e; rfl
      rw [hnine] at hmain
      obtain ⟨qs, items, e, hperm, he⟩ := hmain (fun y hy => by
        obtain ⟨w, hw, -⟩ := (hl.packages y.1 y.2).1 hy
        exact hk _ _ hw)
      obtain ⟨x, hx, hs⟩ := Legible.of_list hr e he hp
      obtain ⟨v, hat, hsays⟩ := (hl.packages x.1 x.2).1 (hperm.mem_iff.1 hx)
      exact ⟨_, .pnpm hc hy h0 hv hk hat hsays, hs⟩
    · rw [C78_pnpm_bad hc hy h0 fun h => hsh h.1] at hr; cases hr
  | @pubspec content n hc hy =>
    by_cases hsh : PubspecShape n
    · obtain ⟨qs, e, he⟩ := C78_pubspec hP hc hy hsh
      exact ⟨_, .pubspec hc hy ((he _).1 (Legible.of_eq hr e hp)), rfl⟩
    · exact absurd hr (C78_pubspec_bad hc hy hsh ps)
  | pom hc hd hpp hl =>
    obtain ⟨f, qs, hf, e, -, hq⟩ := C78_pom_reported hP hc hd hpp hl
    obtain ⟨d, v, h1, h2, rfl⟩ := (hq _).1 (Legible.of_eq hr e hp)
    exact ⟨_, .pom hc hd hpp hl hf h1 h2, rfl⟩
  | go hc hd hok hu =>
    obtain ⟨qs, e, -, he⟩ := C78_go hP hc hd hok hu
    obtain ⟨m, hm, n, h1, h2⟩ := (he _).1 (Legible.of_eq hr e hp)
    exact ⟨_, .go hc hd hok hu hm h1 h2, rfl⟩
  | lines hn =>
    simp only [List.mem_cons, List.not_mem_nil, or_false] at hn
    cases hc : P.file path with
    | none =>
      obtain rfl | rfl | rfl | rfl | rfl := hn
      · rw [show parseFile P g!"Gemfile.lock" path = some (parseGemfileLock (P.file path)) from rfl, hc] at hr; cases hr
      · rw [show parseFile P g!"yarn.lock" path = some (parseYarnLock (P.file path)) from rfl, hc] at hr; cases hr
      · rw [show parseFile P g!"mix.lock" path = some (parseMixLock (P.file path)) from rfl, hc] at hr; cases hr
      · rw [show parseFile P g!"gradle.lockfile" path = some (parseGradleLock (P.file path)) from rfl, hc] at hr; cases hr
      · rw [show parseFile P g!"buildscript-gradle.lockfile" path = some (parseGradleLock (P.file path)) from rfl, hc] at hr; cases hr
    | some content =>
      obtain rfl | rfl | rfl | hn := hn
      · obtain ⟨ls, qs, hl, e, he⟩ := C78_gemfile (P := P) (path := path) hc
        obtain ⟨x, hx, hs⟩ := Legible.of_list hr e he hp
        exact ⟨_, .gemfile hc hl hx, hs⟩
      · have hs := Declares.yarn_scan hc hr
        obtain ⟨gs, qs, hb, e, he⟩ := C78_yarn (P := P) (path := path) hc hs
        obtain ⟨x, hx, hs⟩ := Legible.of_list hr e he hp
        exact ⟨_, .yarn hc hb hx, hs⟩
      · have hs := Declares.mix_scan hc hr
        obtain ⟨qs, e, he⟩ := C78_mix (P := P) (path := path) hc hs
        obtain ⟨x, hx, hs⟩ := Legible.of_list hr e he hp
        exact ⟨_, .mix hc hx, hs⟩
      · have hs := Declares.gradle_scan hn hc hr
        obtain ⟨qs, e, he⟩ := C78_gradle (P := P) (path := path) hc hs _ (by simpa using hn)
        obtain ⟨x, hx, hs⟩ := Legible.of_list hr e he hp
        exact ⟨_, .gradle hc hx hn, hs⟩
  | requirements hdom hn ha =>
    obtain ⟨h1, h2⟩ := C78_requirements (path := path) hP hdom hn
    by_cases hall : ∀ p, IncludeReach P.file path p → ReadableText P.file p
    · obtain ⟨qs, e, -, he⟩ := h2 hall ha
      obtain ⟨p', h3, h4⟩ := (he _).1 (Legible.of_eq hr e hp)
      exact ⟨_, .requirements hdom hn ha h3 h4, rfl⟩
    · have : ∃ p, IncludeReach P.file path p ∧ ¬ ReadableText P.file p := by
        refine Classical.byContradiction fun hno => hall fun p hp => Classical.byContradiction fun hp' => hno ⟨p, hp, hp'⟩
      rw [h1 this] at hr; cases hr

/-- The lockfile of a result is one of those that are asked for, and its packages are those that the parser returned. -/
theorem C90_source (S : Sorter) (env : Env) (W : World) (f : Flags) (hs : Started f (run S (env.inWorld S W) f).events)
    (hg : f.parseAs ≠ csvRowName) (r : Result) (hr : r ∈ shown (run S (env.inWorld S W) f).events)
    (h1 : (lockfileOf r).parsedAs ≠ csvRowName) (h2 : (lockfileOf r).parsedAs ≠ csvFileName) :
    ∃ want, Discovers env f.parseAs f.args want (lockfileOf r).filePath ∧ (lockfileOf r).parsedAs = parserOf want (lockfileOf r).filePath ∧
      (lockfileOf r).parsedAs ∈ parserNames ∧
      ∃ ps, parseFile W.parsers (lockfileOf r).parsedAs (lockfileOf r).filePath = some (ps, false) ∧
        (lockfileOf r).packages = S.sort pkgLess ps := by
  obtain ⟨p, hp⟩ := started_go S (env.inWorld S W) f hs
  obtain ⟨hb, hfiles⟩ := readOf_files S (env.inWorld S W) f p hp
  have hmem : lockfileOf r ∈ ((readOf S (env.inWorld S W) f).files.filter fun x => !x.err).map (·.lockf) := by
    rw [← shown_lockfiles S (env.inWorld S W) f hs]; exact List.mem_map_of_mem hr
  obtain ⟨x, hx, hxl⟩ := List.mem_map.1 hmem
  obtain ⟨hx, hxe⟩ := List.mem_filter.1 hx
  have hxe : x.err = false := by simpa using hxe
  have hin : (x.lockf, x.err) ∈ (readOf S (env.inWorld S W) f).files.map (fun x => (x.lockf, x.err)) :=
    List.mem_map_of_mem (f := fun x : FileEntry => (x.lockf, x.err)) hx
  rw [hfiles] at hin
  obtain ⟨path, hpath, hent⟩ := List.mem_map.1 hin
  obtain ⟨want, q, rfl, hd⟩ := (mem_found (env.inWorld S W) _ f.args _ hg _).1 hpath
  have hw := discovers_colon (badParseAs_false f hb) hd
  have hpl : parseLockfile S (env.inWorld S W) (want ++ ':' :: q) f.args = (x.lockf, x.err) := by
    unfold entryOf at hent
    split at hent
    · split at hent
      · rw [hxe] at hent; simp at hent
      · exact hent
    · exact hent
  rw [C33_parsed S (env.inWorld S W) f.args want q hw, hxe, hxl] at hpl
  rw [← hxl] at h1 h2
  split at hpl
  · rename_i hw'; rw [← hxl] at hpl; injection hpl with hpl; rw [← hpl] at h1; exact absurd hw' h1
  split at hpl
  · rename_i hw'
    split at hpl
    · simp at hpl
    · rw [← hxl] at hpl; injection hpl with hpl; rw [← hpl] at h2; exact absurd hw' h2
  split at hpl
  · rename_i hname
    injection hpl with hpl hpe
    rw [← hpl]
    refine ⟨want, ?_, rfl, hname, ?_⟩
    · cases hd with
      | file arg parser path a b c => exact .file arg parser path a b c
      | entry arg parser path name entries a b c d e => exact .entry arg parser path name entries a b c d e
    · have hparse : (env.inWorld S W).parse (parserOf want q) q = (parseFile W.parsers (parserOf want q) q).getD ([], true) := rfl
      rw [hparse] at hpe ⊢
      cases hpf : parseFile W.parsers (parserOf want q) q with
      | none => rw [hpf] at hpe; cases hpe
      | some res =>
        obtain ⟨ps, e⟩ := res
        rw [hpf] at hpe
        dsimp only [Option.getD_some] at hpe
        subst hpe
        exact ⟨ps, rfl, rfl⟩
  · simp at hpl

/-- The packages of a result, listed or checked, are those that are written in its lockfile. -/
theorem C90_packages (S : Sorter) (env : Env) (W : World) (f : Flags) (hP : FairOrders W.parsers)
    (hs : Started f (run S (env.inWorld S W) f).events)
    (hg : f.parseAs ≠ csvRowName) (r : Result) (hr : r ∈ shown (run S (env.inWorld S W) f).events)
    (h1 : (lockfileOf r).parsedAs ≠ csvRowName) (h2 : (lockfileOf r).parsedAs ≠ csvFileName) :
    (Legible W.parsers (lockfileOf r).filePath (lockfileOf r).parsedAs → ∀ p ∈ (lockfileOf r).packages,
      ∃ entry, Declares W.parsers (lockfileOf r).filePath (lockfileOf r).parsedAs entry ∧ entry p) ∧
    (∀ entry, Declares W.parsers (lockfileOf r).filePath (lockfileOf r).parsedAs entry → ∀ p, entry p →
      ∃ p' ∈ (lockfileOf r).packages, entry p') := by
  obtain ⟨want, -, -, -, ps, hps, hl⟩ := C90_source S env W f hs hg r hr h1 h2
  rw [hl]
  constructor
  · intro hlg p hp
    exact C90_written hP hlg hps ((S.perm pkgLess ps).mem_iff.1 hp)
  · intro entry he p hp
    obtain ⟨p', hm, hp'⟩ := C89_parsed hP he hp hps
    exact ⟨p', (S.perm pkgLess ps).mem_iff.2 hm, hp'⟩

/-- So nothing is reported without reason: for every vulnerability in a report, the lockfile was asked for, the package is written in it,
and an advisory that is not withdrawn affects it, in a database that the lockfile requires, unless that is the API. -/
theorem C90_reported (S : Sorter) (env : Env) (W : World) (f : Flags) (hiter : ∀ l, (env.iter l).Perm l) (hP : FairOrders W.parsers)
    (hl : f.listPackages = false) (hn : f.noConfig = false) (hs : Started f (run S (env.inWorld S W) f).events)
    (hg : f.parseAs ≠ csvRowName) (rep : Report) (hrep : .report rep ∈ shown (run S (env.inWorld S W) f).events)
    (h1 : rep.lockfile.parsedAs ≠ csvRowName) (h2 : rep.lockfile.parsedAs ≠ csvFileName)
    (hlg : Legible W.parsers rep.lockfile.filePath rep.lockfile.parsedAs)
    (q : PkgReport) (hq : q ∈ rep.packages) (v : OSV)
    (hv : v ∈ q.vulnerabilities ++ q.ignored) (hlaws : CmpLaws (W.sem q.pkg.compareAs)) :
    (∃ want, Discovers env f.parseAs f.args want rep.lockfile.filePath ∧ rep.lockfile.parsedAs = parserOf want rep.lockfile.filePath) ∧
    (∃ entry, Declares W.parsers rep.lockfile.filePath rep.lockfile.parsedAs entry ∧ entry q.pkg) ∧
    ∃ x ∈ (readOf S (env.inWorld S W) f).files, x.lockf = rep.lockfile ∧
    (v ∈ q.ignored ↔ Excused env f rep.lockfile.filePath v.id) ∧ ∃ c d : DBConfig,
      Required f ((readOf S (env.inWorld S W) f).cells.getD x.config {}).databases x.lockf.packages c ∧
      d.identifier = c.identifier ∧
      (d.type = g!"api" ∨
        ((∀ o ∈ advisoriesOf W.load d f.offline, WellFormedOSV (W.sem q.pkg.compareAs) o) →
          ∃ o ∈ advisoriesOf W.load d f.offline, v.id = o.id ∧ v.aliases = o.aliases ∧ o.withdrawn = none ∧
            Affects (W.sem q.pkg.compareAs) o q.pkg ∧
            ((d.workingDirectory = [] ∨ ∃ w, d.workingDirectory = w ++ g!"/") → Published W.load d f.offline o))) := by
  obtain ⟨want, hd, hpa, -⟩ := C90_source S env W f hs hg _ hrep h1 h2
  obtain ⟨x, hx, hxl, hpk, hex, hdb⟩ := C66_reported_partial S env W f hiter hl hn hs rep hrep q hq v hv hlaws
  refine ⟨⟨want, hd, hpa⟩, ?_, x, hx, hxl, hex, hdb⟩
  rw [hxl] at hpk
  exact (C90_packages S env W f hP hs hg _ hrep h1 h2).1 hlg _ hpk

/-- The hypotheses hold for the sample of C89: there is one report, for a legible file. -/
example : let W := gradleWorld gradleText
    Started (sampleFlags [g!"w"]) (run Sorter.insertion (gradleEnv.inWorld Sorter.insertion W) (sampleFlags [g!"w"])).events ∧
    Legible W.parsers g!"w/gradle.lockfile" g!"gradle.lockfile" ∧
    (shown (run Sorter.insertion (gradleEnv.inWorld Sorter.insertion W) (sampleFlags [g!"w"])).events).map lockfileOf =
      [⟨g!"w/gradle.lockfile", g!"gradle.lockfile", [⟨g!"g:a", g!"1.0", [], g!"Maven", g!"Maven"⟩]⟩] := by
  refine ⟨⟨rfl, rfl, ?_⟩, .lines (by decide), by decide +kernel⟩
  intro m hm
  have : (run Sorter.insertion (gradleEnv.inWorld Sorter.insertion (gradleWorld gradleText)) (sampleFlags [g!"w"])).events.all
      (fun e => match e with | .error _ => false | _ => true) = true := by decide +kernel
  have := List.all_eq_true.1 this _ hm
  cases this

end Osv
