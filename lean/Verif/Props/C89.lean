import Verif.Props.C78
import Verif.Props.C86
import Verif.Props.C88
/-!
# C89 What is written in a lockfile is checked

The properties of parsers speak of single files, and those of runs speak of the packages that parsers return. Here they are joined: from
an entry that is written in a lockfile to the exit code, for all formats.
-/
namespace Osv
open Spec Str Spec.Markup

/-- The file at `path`, taken for the format `name`, has an entry that says a package as described by `entry`. The conditions are those
under which the format is read exactly, see the properties of the single formats. -/
inductive Declares (P : ParserEnv) (path : Str) : Str → (PackageDetails → Prop) → Prop
  | bun {content : Str} {doc packages : JMembers} {member : Str × JVal} : P.file path = some content → JsoncDoc (.obj doc) content →
      PlainKeys [g!"lockfileVersion", g!"packages"] doc → Member doc g!"packages" (.obj packages) → DistinctKeys packages →
      (∀ v, Member doc g!"lockfileVersion" v → IsInt v) →
      (∀ k v, Member packages k v → ∃ e l, v = .arr (.cons e l) ∧ ∀ lit, NumberIn lit v → P.isFloat lit = true) →
      member ∈ packages.toList → Declares P path g!"bun.lock" (BunPackage member)
  | cargo {content : Str} {n : TNode} {items : List TNode} {x : TNode} : P.file path = some content → P.toml content = some n → TPlain n →
      TEntry n g!"package" (.arr items) → x ∈ items → Declares P path g!"Cargo.lock" (CargoSays x)
  | poetry {content : Str} {n : TNode} {items : List TNode} {x : TNode} : P.file path = some content → P.toml content = some n → TPlain n →
      TEntry n g!"package" (.arr items) → x ∈ items → Declares P path g!"poetry.lock" (PoetrySays x)
  | pdm {content : Str} {n : TNode} {items : List TNode} {x : TNode} : P.file path = some content → P.toml content = some n → TPlain n →
      TEntry n g!"package" (.arr items) → x ∈ items → Declares P path g!"pdm.lock" (PdmSays x)
  | uv {content : Str} {n : TNode} {items : List TNode} {x : TNode} : P.file path = some content → P.toml content = some n → TPlain n →
      TEntry n g!"package" (.arr items) → x ∈ items → Declares P path g!"uv.lock" (UvSays x)
  | pylock {content : Str} {n : TNode} {items : List TNode} {x : TNode} : P.file path = some content → P.toml content = some n → TPlain n →
      TEntry n g!"packages" (.arr items) → x ∈ items → Declares P path g!"pylock.toml" (PylockSays x)
  | composer {content : Str} {packages dev : List JVal} {x : JVal} : P.file path = some content → ComposerFile content packages dev →
      x ∈ packages ++ dev → Declares P path g!"composer.lock" (ComposerEntry x)
  | renv {content : Str} {packages : JMembers} {x : Str × JVal} : P.file path = some content → RenvFile content packages →
      x ∈ packages.toList → Declares P path g!"renv.lock" (RenvEntry x)
  | nuget {content : Str} {frameworks : JMembers} {p : PackageDetails} : P.file path = some content → NuGetFile content g!"1" frameworks →
      (∀ p, NuGetEntry frameworks p → '@' ∉ p.name) → NuGetEntry frameworks p → Declares P path g!"packages.lock.json" (· = p)
  | pipenv {content : Str} {default develop : JMembers} {p : PackageDetails} : P.file path = some content →
      PipenvFile content default develop →
      (∀ name version, PipenvListed default develop name version → version = [] ∨ ∃ v, version = g!"==" ++ v) →
      (∀ name version, PipenvListed default develop name version → '@' ∉ name) →
      PipenvEntry default p ∨ PipenvEntry develop p → Declares P path g!"Pipfile.lock" (· = p)
  | npmOne {content : Str} {deps : JMembers} {name version : Str} {p : PackageDetails} : P.file path = some content →
      NpmV1File content deps →
      (∀ name version p, NpmJsonDep deps name version → NpmEntry tryExtractCommit name version p → NpmName p.name) →
      (∀ name version p name' version' p', NpmJsonDep deps name version → NpmEntry tryExtractCommit name version p →
        NpmJsonDep deps name' version' → NpmEntry tryExtractCommit name' version' p' → p.name = p'.name →
        p.commit ≠ [] → p'.commit = [] → version' ≠ p.commit) →
      NpmJsonDep deps name version → NpmEntry tryExtractCommit name version p → Declares P path g!"package-lock.json" (· = p)
  | npmTwo {content : Str} {packages : JMembers} {at_ name version resolved : Str} {p : PackageDetails} : P.file path = some content →
      NpmV2File content packages →
      (∀ at_ version resolved, NpmJsonPackage packages at_ [] version resolved → ∃ segments, NpmPath at_ segments) →
      (∀ at_ name version resolved p, NpmJsonPackage packages at_ name version resolved →
        NpmPackageEntry tryExtractCommit at_ name version resolved p → NpmName p.name) →
      (∀ at_ name version resolved p at_' name' version' resolved' p',
        NpmJsonPackage packages at_ name version resolved → NpmPackageEntry tryExtractCommit at_ name version resolved p →
        NpmJsonPackage packages at_' name' version' resolved' → NpmPackageEntry tryExtractCommit at_' name' version' resolved' p' →
        p.name = p'.name → p.commit ≠ [] →
        (p'.commit = p.commit → p'.version = p.version) ∧ (p'.commit = [] → p'.version ≠ p.commit)) →
      NpmJsonPackage packages at_ name version resolved → NpmPackageEntry tryExtractCommit at_ name version resolved p →
      Declares P path g!"package-lock.json" (· = p)
  | pnpm {content : Str} {n v : YNode} {k : Str} {x : PnpmLockPackage} {nine : Bool} : P.file path = some content →
      P.yaml content = some (some n) → ¬ YNull n → (∀ s, YText n [g!"lockfileVersion"] s → P.pnpmNine s = some nine) →
      (∀ k v, YAt n [g!"packages", k] v → ∃ name version, PnpmRule nine k name version) →
      YAt n [g!"packages", k] v → PnpmPackageSays v x → Declares P path g!"pnpm-lock.yaml" (PnpmEntryBy (PnpmRule nine) (k, x))
  | pubspec {content : Str} {n : YNode} {p : PackageDetails} : P.file path = some content → P.yaml content = some (some n) →
      PubspecSays n p → Declares P path g!"pubspec.lock" (· = p)
  | pom {content : Str} {kids : List XNode} {f : MavenLockFile} {d : MavenLockDependency} {v : Str} : P.file path = some content →
      Document g!"project" kids content → (∀ n v, writtenProperty kids n = some v → '\n' ∉ v) →
      (∀ k, k ∈ elementsAt [g!"dependencies", g!"dependency"] kids ∨
        k ∈ elementsAt [g!"dependencyManagement", g!"dependencies", g!"dependency"] kids → '\n' ∉ (writtenDependency k).version) →
      PomSays kids f → MavenEffective f d → MavenReported f.properties d.version v →
      Declares P path g!"pom.xml" (· = pkg g!"Maven" (mavenName d) v [])
  | go {content : Str} {f : GoModFile} {m n : GoModule} {p : PackageDetails} : P.file path = some content → P.gomod content = some f →
      GoModOk f → GoMod.Unchained f.replace → m ∈ f.require → GoSelected f.replace m n → GoReported n p →
      Declares P path g!"go.mod" (· = p)
  | gemfile {content : Str} {ls : List Str} {x : List Str × Str} : P.file path = some content → NonEmptyLines content ls →
      x ∈ withPrefixes [] ls → Declares P path g!"Gemfile.lock" (GemEntry x)
  | yarn {content : Str} {gs : List (List Str)} {g : List Str} : P.file path = some content → Blocks (Scanner.scan content).1 gs →
      g ∈ gs → Declares P path g!"yarn.lock" (YarnEntry g)
  | mix {content line : Str} : P.file path = some content → line ∈ (Scanner.scan content).1 → Declares P path g!"mix.lock" (MixEntry line)
  | gradle {content line name : Str} : P.file path = some content → line ∈ (Scanner.scan content).1 →
      name = g!"gradle.lockfile" ∨ name = g!"buildscript-gradle.lockfile" → Declares P path name (GradleEntry line)
  | requirements {dom : List Str} {p : Str} {d : PackageDetails} : (∀ p, P.file p ≠ none → p ∈ dom) → dom.length + 2 ≤ P.reqDepth →
      (∀ p d, IncludeReach P.file path p → Requires P.file p d → '@' ∉ d.name) →
      IncludeReach P.file path p → Requires P.file p d → Declares P path g!"requirements.txt" (· = d)

namespace Declares

theorem of_entries {α β : Type} {R : α → β → Prop} {items : List α} {out : List β} (h : Entries R items out) {x : α} (hx : x ∈ items)
    {b : β} (hb : R x b) : ∃ b' ∈ out, R x b' := by
  induction h with
  | nil => cases hx
  | keep hr _ ih =>
    rcases List.mem_cons.1 hx with rfl | hx
    · exact ⟨_, List.mem_cons_self, hr⟩
    · obtain ⟨b', h1, h2⟩ := ih hx
      exact ⟨b', List.mem_cons_of_mem _ h1, h2⟩
  | skip hr _ ih =>
    rcases List.mem_cons.1 hx with rfl | hx
    · exact absurd hb (hr _)
    · exact ih hx

theorem of_eq {ps qs : List PackageDetails} {p : PackageDetails} {r : Option (List PackageDetails × Bool)} (h : r = some (ps, false))
    (h' : r = some (qs, false)) (hp : p ∈ qs) : ∃ p' ∈ ps, p' = p := by
  rw [h] at h'; cases h'; exact ⟨p, hp, rfl⟩

theorem of_list {α : Type} {R : α → PackageDetails → Prop} {ps qs : List PackageDetails} {items : List α} {x : α} {p : PackageDetails}
    {r : Option (List PackageDetails × Bool)} (h : r = some (ps, false))
    (h' : r = some (qs, false)) (he : Entries R items qs) (hx : x ∈ items) (hp : R x p) : ∃ p' ∈ ps, R x p' := by
  rw [h] at h'; cases h'; exact of_entries he hx hp

theorem toml_items {n : TNode} (hp : TPlain n) {k : Str} {l l' : List TNode} (h : TEntry n k (.arr l)) (h' : TItems n k l') : l' = l := by
  rcases h' with h' | ⟨h', -⟩
  · obtain ⟨es, k', rfl, -⟩ := id h
    have := Toml.entry_unique (Toml.plain_keys hp) h h'
    cases this; rfl
  · exact absurd h (h' l)

theorem of_toml {Shape : TNode → Prop} {Says : TNode → PackageDetails → Prop} {n : TNode} (hp : TPlain n) {k : Str}
    {items : List TNode} {x : TNode} {p : PackageDetails} {ps : List PackageDetails} {r : Option (List PackageDetails × Bool)}
    (hk : TEntry n k (.arr items)) (hx : x ∈ items) (hs : Says x p) (h : r = some (ps, false))
    (h' : (Shape n → ∃ ps items, r = some (ps, false) ∧ TItems n k items ∧ Entries Says items ps) ∧ (¬ Shape n → r = some ([], true))) :
    ∃ p' ∈ ps, Says x p' := by
  by_cases hsh : Shape n
  · obtain ⟨qs, items', h1, h2, h3⟩ := h'.1 hsh
    rw [toml_items hp hk h2] at h3
    exact of_list h h1 h3 hx hs
  · rw [h'.2 hsh] at h; cases h

theorem yarn_scan {P : ParserEnv} {path content : Str} (hc : P.file path = some content) {ps : List PackageDetails}
    (hr : parseFile P g!"yarn.lock" path = some (ps, false)) : (Scanner.scan content).2 = false := by
  rw [show parseFile P g!"yarn.lock" path = some (parseYarnLock (P.file path)) from rfl, hc] at hr
  injection hr with hr
  have hr := congrArg Prod.snd hr
  unfold parseYarnLock at hr
  dsimp only at hr
  split at hr
  · cases hr
  · rename_i h'; simpa using h'

theorem mix_scan {P : ParserEnv} {path content : Str} (hc : P.file path = some content) {ps : List PackageDetails}
    (hr : parseFile P g!"mix.lock" path = some (ps, false)) : (Scanner.scan content).2 = false := by
  rw [show parseFile P g!"mix.lock" path = some (parseMixLock (P.file path)) from rfl, hc] at hr
  injection hr with hr
  have hr := congrArg Prod.snd hr
  unfold parseMixLock at hr
  dsimp only at hr
  split at hr
  · cases hr
  · rename_i h'; simpa using h'

theorem gradle_scan {P : ParserEnv} {path content name : Str} (hn : name = g!"gradle.lockfile" ∨ name = g!"buildscript-gradle.lockfile")
    (hc : P.file path = some content) {ps : List PackageDetails} (hr : parseFile P name path = some (ps, false)) :
    (Scanner.scan content).2 = false := by
  have e : parseFile P name path = some (parseGradleLock (P.file path)) := by rcases hn with rfl | rfl <;> rfl
  rw [e, hc] at hr
  injection hr with hr
  have hr := congrArg Prod.snd hr
  unfold parseGradleLock at hr
  dsimp only at hr
  split at hr
  · cases hr
  · rename_i h'; simpa using h'

end Declares

/-- The parser of the format finds every entry, unless it reports an error. -/
theorem C89_parsed {P : ParserEnv} (hP : FairOrders P) {path name : Str} {entry : PackageDetails → Prop} (h : Declares P path name entry)
    {p : PackageDetails} (hp : entry p) {ps : List PackageDetails} (hr : parseFile P name path = some (ps, false)) :
    ∃ p' ∈ ps, entry p' := by
  cases h with
  | bun hc h1 h2 h3 h4 h5 h6 hx =>
    obtain ⟨qs, items, e, hperm, he⟩ := C78_bun hP hc h1 h2 h3 h4 h5 h6
    exact Declares.of_list hr e he (hperm.mem_iff.2 hx) hp
  | cargo hc hn hpl hk hx => exact Declares.of_toml hpl hk hx hp hr (C78_cargo hc hn hpl)
  | poetry hc hn hpl hk hx => exact Declares.of_toml hpl hk hx hp hr (C78_poetry hc hn hpl)
  | pdm hc hn hpl hk hx => exact Declares.of_toml hpl hk hx hp hr (C78_pdm hc hn hpl)
  | uv hc hn hpl hk hx => exact Declares.of_toml hpl hk hx hp hr (C78_uv hc hn hpl)
  | pylock hc hn hpl hk hx => exact Declares.of_toml hpl hk hx hp hr (C78_pylock hc hn hpl)
  | composer hc hf hx =>
    obtain ⟨qs, e, he⟩ := C78_composer hc hf
    exact Declares.of_list hr e he hx hp
  | renv hc hf hx =>
    obtain ⟨qs, items, e, hperm, he⟩ := C78_renv hP hc hf
    exact Declares.of_list hr e he (hperm.mem_iff.2 hx) hp
  | nuget hc hf ha hx =>
    obtain ⟨qs, e, -, he⟩ := C78_nuget hP hc hf ha
    exact Declares.of_eq hr e ((he _).2 hx)
  | pipenv hc hf hv ha hx =>
    obtain ⟨qs, e, -, he⟩ := C78_pipenv hP hc hf hv ha
    exact Declares.of_eq hr e ((he _).2 hx)
  | npmOne hc hf hn hcm h1 h2 => exact ⟨_, (C78_npm_v1 hP hc hf hn hcm hr _).2 ⟨_, _, h1, h2⟩, rfl⟩
  | npmTwo hc hf hpt hn hcm h1 h2 => exact ⟨_, (C78_npm_v2_exact hP hc hf hpt hn hcm hr _).2 ⟨_, _, _, _, h1, h2⟩, rfl⟩
  | @pnpm content n v k x nine hc hy h0 hv hk hx hs =>
    obtain ⟨s, hsv⟩ : ∃ s, YText n [g!"lockfileVersion"] s := by
      by_cases h : ∃ t, YAt n [g!"lockfileVersion"] (.scalar t false)
      · obtain ⟨t, h⟩ := h; exact ⟨t, .inl h⟩
      · exact ⟨[], .inr ⟨fun t ht => h ⟨t, ht⟩, rfl⟩⟩
    by_cases hsh : PnpmShape n
    · obtain ⟨l, hl, hmain⟩ := C78_pnpm_rule hP hc hy h0 hsh ⟨s, hsv, by rw [hv s hsv]; rfl⟩
      have hnine : l.isNine = nine := by
        obtain ⟨t, ht, e⟩ := hl.version
        rw [hv t ht] at e; cases e; rfl
      rw [hnine] at hmain
      obtain ⟨qs, items, e, hperm, he⟩ := hmain (fun y hy => by
        obtain ⟨w, hw, -⟩ := (hl.packages y.1 y.2).1 hy
        exact hk _ _ hw)
      exact Declares.of_list hr e he (hperm.mem_iff.2 ((hl.packages k x).2 ⟨v, hx, hs⟩)) hp
    · rw [C78_pnpm_bad hc hy h0 fun h => hsh h.1] at hr; cases hr
  | @pubspec content n p hc hy hs =>
    by_cases hsh : PubspecShape n
    · obtain ⟨qs, e, he⟩ := C78_pubspec hP hc hy hsh
      exact Declares.of_eq hr e ((he _).2 hs)
    · exact absurd hr (C78_pubspec_bad hc hy hsh ps)
  | @pom content kids f d v hc hd hpp hl hs he hv =>
    obtain ⟨f', qs, hf', e, -, hq⟩ := C78_pom_reported hP hc hd hpp hl
    refine Declares.of_eq hr e ((hq _).2 ⟨d, v, ?_, ?_, rfl⟩)
    · unfold MavenEffective at he ⊢
      rw [hf'.dependencies, hf'.managed, ← hs.dependencies, ← hs.managed]
      exact he
    · have hg : ∀ name, f'.properties.get? name = f.properties.get? name := fun name => by rw [hf'.properties, hs.properties]
      unfold MavenReported at hv ⊢
      simpa only [hg] using hv
  | go hc hd hok hu hm hs hg =>
    obtain ⟨qs, e, -, he⟩ := C78_go hP hc hd hok hu
    exact Declares.of_eq hr e ((he _).2 ⟨_, hm, _, hs, hg⟩)
  | gemfile hc hl hx =>
    obtain ⟨ls', qs, hl', e, he⟩ := C78_gemfile (P := P) (path := path) hc
    rw [C50_lines_unique _ _ _ hl' hl] at he
    exact Declares.of_list hr e he hx hp
  | yarn hc hb hx =>
    obtain ⟨gs', qs, hb', e, he⟩ := C78_yarn (P := P) (path := path) hc (Declares.yarn_scan hc hr)
    rw [C44_unique _ _ _ hb' hb] at he
    exact Declares.of_list hr e he hx hp
  | mix hc hx =>
    obtain ⟨qs, e, he⟩ := C78_mix (P := P) (path := path) hc (Declares.mix_scan hc hr)
    exact Declares.of_list hr e he hx hp
  | gradle hc hx hn =>
    obtain ⟨qs, e, he⟩ := C78_gradle (P := P) (path := path) hc (Declares.gradle_scan hn hc hr) _ (by simpa using hn)
    exact Declares.of_list hr e he hx hp
  | requirements hdom hn ha hreach hq =>
    obtain ⟨h1, h2⟩ := C78_requirements (path := path) hP hdom hn
    by_cases hall : ∀ p, IncludeReach P.file path p → ReadableText P.file p
    · obtain ⟨qs, e, -, he⟩ := h2 hall ha
      exact Declares.of_eq hr e ((he _).2 ⟨_, hreach, hq⟩)
    · have : ∃ p, IncludeReach P.file path p ∧ ¬ ReadableText P.file p := by
        refine Classical.byContradiction fun hno => hall fun p hp => Classical.byContradiction fun hp' => hno ⟨p, hp, hp'⟩
      rw [h1 this] at hr; cases hr

/-- What has been done for a package: the archive of its ecosystem has been fetched and opened, and every advisory in it that affects the
package is withdrawn or ignored, itself or through another for the same vulnerability. -/
def Checked (env : Env) (W : World) (f : Flags) (q : Str) (pkg : PackageDetails) : Prop :=
  (∃ body t es, W.load.fetch (ecosystemDBConfig pkg.ecosystem).url [] f.offline = .ok body t ∧ W.load.unzip body = some es) ∧
  (CmpLaws (W.sem pkg.compareAs) →
    (∀ o, Published W.load (ecosystemDBConfig pkg.ecosystem) f.offline o → WellFormedOSV (W.sem pkg.compareAs) o) →
    ∀ o, Published W.load (ecosystemDBConfig pkg.ecosystem) f.offline o → o.withdrawn = none →
    Affects (W.sem pkg.compareAs) o pkg → ∃ o', Linked o' o ∧ Excused env f q o'.id)

/-- If the exit code is 0, every package written in a lockfile that is given or found in a directory has been checked. -/
theorem C89_clean (S : Sorter) (env : Env) (W : World) (f : Flags) (hiter : ∀ l, (env.iter l).Perm l) (hP : FairOrders W.parsers)
    (hv : f.printVersion = false) (hle : f.listEcosystems = false) (hl : f.listPackages = false)
    (hud : f.useDatabases = true) (hc : f.noConfig = false ∨ f.noConfigDatabases = false) (hg : f.parseAs ≠ csvRowName)
    (h0 : (run S (env.inWorld S W) f).exit = 0) (want q : Str) (hd : Discovers env f.parseAs f.args want q)
    (n1 : want ≠ csvRowName) (n2 : want ≠ csvFileName) {entry : PackageDetails → Prop}
    (he : Declares W.parsers q (parserOf want q) entry) (p : PackageDetails) (hp : entry p) :
    ∃ pkg, entry pkg ∧ Checked env W f q pkg := by
  obtain ⟨ps, hps, hall⟩ := C66_default_partial S env W f hiter hP.go hP.order hP.reqOrder hv hle hl hud hc hg h0 want q hd n1 n2
  obtain ⟨pkg, hmem, hpkg⟩ := C89_parsed hP he hp hps
  obtain ⟨-, -, h1, h2⟩ := hall pkg hmem
  exact ⟨pkg, hpkg, h1, h2⟩

/-- Turned around: if an advisory affects whatever package an entry can stand for, and it is not ignored, the exit code is not 0. -/
theorem C89_reported (S : Sorter) (env : Env) (W : World) (f : Flags) (hiter : ∀ l, (env.iter l).Perm l) (hP : FairOrders W.parsers)
    (hv : f.printVersion = false) (hle : f.listEcosystems = false) (hl : f.listPackages = false)
    (hud : f.useDatabases = true) (hc : f.noConfig = false ∨ f.noConfigDatabases = false) (hg : f.parseAs ≠ csvRowName)
    (want q : Str) (hd : Discovers env f.parseAs f.args want q) (n1 : want ≠ csvRowName) (n2 : want ≠ csvFileName)
    {p : PackageDetails} {entry : PackageDetails → Prop} (he : Declares W.parsers q (parserOf want q) entry) (hp : ∀ p', entry p' ↔ p' = p)
    (hlaws : CmpLaws (W.sem p.compareAs))
    (hwf : ∀ o, Published W.load (ecosystemDBConfig p.ecosystem) f.offline o → WellFormedOSV (W.sem p.compareAs) o)
    (o : OSV) (hpub : Published W.load (ecosystemDBConfig p.ecosystem) f.offline o) (hw : o.withdrawn = none)
    (haff : Affects (W.sem p.compareAs) o p) (hno : ∀ o', Linked o' o → ¬ Excused env f q o'.id) :
    (run S (env.inWorld S W) f).exit ≠ 0 := by
  intro h0
  obtain ⟨pkg, h1, -, h2⟩ := C89_clean S env W f hiter hP hv hle hl hud hc hg h0 want q hd n1 n2 he p ((hp p).2 rfl)
  obtain rfl := (hp pkg).1 h1
  obtain ⟨o', h3, h4⟩ := h2 hlaws hwf o hpub hw haff
  exact hno o' h3 h4

/-- If moreover no database had anything to say, all files of the archive have been read, and no advisory in it names the package
without saying which versions. -/
theorem C89_quiet (S : Sorter) (env : Env) (W : World) (C : ArchiveLoads) (f : Flags) (hiter : ∀ l, (env.iter l).Perm l)
    (hP : FairOrders W.parsers) (hv : f.printVersion = false) (hle : f.listEcosystems = false) (hl : f.listPackages = false)
    (hoff : f.offline = false) (hud : f.useDatabases = true) (hc : f.noConfig = false ∨ f.noConfigDatabases = false)
    (hg : f.parseAs ≠ csvRowName) (hcache : W.FollowsCache C f.offline) (hdiag : W.FollowsDiagnostics C f.offline)
    (hpath : ∀ url wd, ∀ r' ∈ C.before url wd, C.path r'.url = C.path url → r'.url = url) (hinit : ∀ url, C.fs (C.path url) = none)
    (h0 : (run S (env.inWorld S W) f).exit = 0) (hq : ∀ n, .warning n ∉ (run S (env.inWorld S W) f).events)
    (want q : Str) (hd : Discovers env f.parseAs f.args want q) (n1 : want ≠ csvRowName) (n2 : want ≠ csvFileName)
    {entry : PackageDetails → Prop} (he : Declares W.parsers q (parserOf want q) entry) (p : PackageDetails) (hp : entry p) :
    ∃ pkg, entry pkg ∧ Checked env W f q pkg ∧ ∀ url, url = (ecosystemDBConfig pkg.ecosystem).url → ∀ archive,
      Serving (C.before url []) (C.now url []) (C.trace url []).sent archive →
      ∃ es, W.load.unzip archive = some es ∧
        ∀ e ∈ es, JsonName e.name → ∃ o, Holds W.load.decode e o ∧
          (CmpLaws (W.sem pkg.compareAs) → (∀ o, InArchive W.load.decode es o → WellFormedOSV (W.sem pkg.compareAs) o) →
            o.withdrawn = none → Affects (W.sem pkg.compareAs) o pkg ∨ Unbounded o pkg → ∃ o', Linked o' o ∧ Excused env f q o'.id) := by
  obtain ⟨ps, hps, hall⟩ := C66_default_partial S env W f hiter hP.go hP.order hP.reqOrder hv hle hl hud hc hg h0 want q hd n1 n2
  obtain ⟨ps', hps', hall'⟩ := C86_default_partial S env W C f hiter hP.go hP.order hP.reqOrder hv hle hl hoff hud hc hg hcache hdiag
    hpath hinit h0 hq want q hd n1 n2
  rw [hps] at hps'
  cases hps'
  obtain ⟨pkg, hmem, hpkg⟩ := C89_parsed hP he hp hps
  obtain ⟨-, -, h1, h2⟩ := hall pkg hmem
  exact ⟨pkg, hpkg, ⟨h1, h2⟩, hall' pkg hmem⟩

/-- The messages of the parsers in a run are those of the parsers of its lockfiles. -/
theorem discovered_quiet (S : Sorter) (env : Env) (W : World) (f : Flags)
    (hv : f.printVersion = false) (hle : f.listEcosystems = false) (hg : f.parseAs ≠ csvRowName)
    (h0 : (run S (env.inWorld S W) f).exit = 0) (want q : Str) (hd : Discovers env f.parseAs f.args want q)
    (n1 : want ≠ csvRowName) (n2 : want ≠ csvFileName)
    (hm : runParserDiags W.parsers (readOf S (env.inWorld S W) f).files = []) : parserDiags W.parsers (parserOf want q) q = [] := by
  obtain ⟨ps, -, x, hx, e⟩ := discovered_entry S env W f hv hle hg h0 want q hd n1 n2
  unfold runParserDiags at hm
  have := List.flatMap_eq_nil_iff.1 hm x hx
  rw [e] at this
  exact this

/-- If the exit code is 0 and no parser had anything to say, nothing that is written was skipped: every line of a gradle lockfile is a
comment, the list of empty configurations, or a package that has been checked; every line of a mix.lock that looks like a dependency is
one that has been checked; every block of a yarn.lock that is a package has a version and has been checked; and for every dependency of a
pom.xml the property that its version refers to is there. -/
theorem C89_nothing_skipped (S : Sorter) (env : Env) (W : World) (f : Flags) (hiter : ∀ l, (env.iter l).Perm l)
    (hP : FairOrders W.parsers) (hv : f.printVersion = false) (hle : f.listEcosystems = false) (hl : f.listPackages = false)
    (hud : f.useDatabases = true) (hc : f.noConfig = false ∨ f.noConfigDatabases = false) (hg : f.parseAs ≠ csvRowName)
    (h0 : (run S (env.inWorld S W) f).exit = 0) (want q : Str) (hd : Discovers env f.parseAs f.args want q)
    (n1 : want ≠ csvRowName) (n2 : want ≠ csvFileName)
    (hm : runParserDiags W.parsers (readOf S (env.inWorld S W) f).files = [])
    (content : Str) (hf : W.parsers.file q = some content) :
    (parserOf want q = g!"gradle.lockfile" ∨ parserOf want q = g!"buildscript-gradle.lockfile" →
      ∀ line ∈ (Scanner.scan content).1,
        (∀ body, Trimmed line body → (∃ t, body = '#' :: t) ∨ ∃ t, body = g!"empty=" ++ t) ∨
        ∃ pkg, GradleEntry line pkg ∧ Checked env W f q pkg) ∧
    (parserOf want q = g!"mix.lock" → ∀ line ∈ (Scanner.scan content).1, ∀ name, MixHead line name →
      ∃ pkg, MixEntry line pkg ∧ Checked env W f q pkg) ∧
    (parserOf want q = g!"yarn.lock" → ∃ gs, Blocks (Scanner.scan content).1 gs ∧ ∀ g ∈ gs, ∀ p, YarnEntry g p →
      ∃ pkg, YarnEntry g pkg ∧ pkg.version ≠ [] ∧ Checked env W f q pkg) ∧
    (parserOf want q = g!"pom.xml" → ∀ kids, Document g!"project" kids content → ∀ k,
      k ∈ elementsAt [g!"dependencies", g!"dependency"] kids ∨
        k ∈ elementsAt [g!"dependencyManagement", g!"dependencies", g!"dependency"] kids →
      ∀ name, '\n' ∉ name → name ≠ [] → (writtenDependency k).version = Reference name → ∃ v, writtenProperty kids name = some v) := by
  have hquiet := discovered_quiet S env W f hv hle hg h0 want q hd n1 n2 hm
  obtain ⟨ps, hps, -⟩ := discovered_entry S env W f hv hle hg h0 want q hd n1 n2
  have hclean := fun {entry : PackageDetails → Prop} => C89_clean S env W f hiter hP hv hle hl hud hc hg h0 want q hd n1 n2 (entry := entry)
  refine ⟨?_, ?_, ?_, ?_⟩
  · intro hn line hline
    have e1 : parserDiags W.parsers (parserOf want q) q = gradleDiags (W.parsers.file q) := by
      rcases hn with hn | hn <;> rw [hn] <;> simp [parserDiags]
    have e2 : parseFile W.parsers (parserOf want q) q = some (parseGradleLock (W.parsers.file q)) := by
      rcases hn with hn | hn <;> rw [hn] <;> rfl
    rw [e1, hf] at hquiet
    rw [e2, hf] at hps
    injection hps with hps
    rcases C88_gradle_quiet content (by rw [hps]) hquiet line hline with h | ⟨p, -, hp⟩
    · exact .inl h
    · exact .inr (hclean (.gradle hf hline hn) p hp)
  · intro hn line hline name hname
    rw [hn] at hquiet hps
    rw [show parserDiags W.parsers g!"mix.lock" q = mixDiags (W.parsers.file q) by simp [parserDiags], hf] at hquiet
    rw [show parseFile W.parsers g!"mix.lock" q = some (parseMixLock (W.parsers.file q)) from rfl, hf] at hps
    injection hps with hps
    obtain ⟨p, -, hp⟩ := C88_mix_quiet content (by rw [hps]) hquiet line name hline hname
    exact hclean (by rw [hn]; exact .mix hf hline) p hp
  · intro hn
    rw [hn, show parserDiags W.parsers g!"yarn.lock" q = yarnDiags (W.parsers.file q) by simp [parserDiags], hf] at hquiet
    obtain ⟨ps', hps', hall⟩ := C66_default_partial S env W f hiter hP.go hP.order hP.reqOrder hv hle hl hud hc hg h0 want q hd n1 n2
    obtain ⟨gs, hgs⟩ : ∃ gs, Blocks (Scanner.scan content).1 gs := ⟨_, C44_blocks _⟩
    refine ⟨gs, hgs, fun g hg p hp => ?_⟩
    obtain ⟨pkg, hmem, hpkg⟩ := C89_parsed hP (by rw [hn]; exact .yarn hf hgs hg) hp hps'
    obtain ⟨-, -, h1, h2⟩ := hall pkg hmem
    refine ⟨pkg, hpkg, C88_yarn_quiet (some content) hquiet pkg ?_, h1, h2⟩
    rw [hn, show parseFile W.parsers g!"yarn.lock" q = some (parseYarnLock (W.parsers.file q)) from rfl, hf] at hps'
    injection hps' with hps'
    rw [hps']
    exact hmem
  · intro hn kids hdoc k hk name h1 h2 h3
    rw [hn] at hquiet
    rw [show parserDiags W.parsers g!"pom.xml" q = mavenDiags pomDecode (W.parsers.file q) by simp [parserDiags], hf] at hquiet
    obtain ⟨g, hg', hs⟩ := (C74_read hdoc).1 rfl
    obtain ⟨v, hv, -⟩ := C88_maven_quiet pomDecode content g hg' hquiet (writtenDependency k) (by
      rw [List.mem_append, hs.dependencies, hs.managed]
      rcases hk with hk | hk
      · exact .inr (List.mem_map_of_mem hk)
      · exact .inl (List.mem_map_of_mem hk)) name h1 h2 h3
    exact ⟨v, by rw [← hs.properties]; exact hv⟩

/-! ### Samples -/

/-- A directory with a gradle lockfile. -/
def gradleEnv : Env := { sampleEnv with path := fun p => if p = g!"w" then .dir [(g!"gradle.lockfile", false)] else .cannotOpen }

/-- Its text; in one of the samples there is a line without a version. -/
def gradleWorld (text : Str) : World :=
  { sampleWorld (sampleAdvisory g!"Maven" g!"g:a" g!"1.0") with
    parsers := { sampleParsers with file := fun p => if p = g!"w/gradle.lockfile" then some text else none } }

def gradleText : Str := g!"# comment\ng:a:1.0=runtimeClasspath\nempty=annotationProcessor\n"

/-- The package is affected: exit code 1. With the advisory ignored the exit code is 0. -/
example : (run Sorter.insertion (gradleEnv.inWorld Sorter.insertion (gradleWorld gradleText)) (sampleFlags [g!"w"])).exit = 1 ∧
    (run Sorter.insertion (gradleEnv.inWorld Sorter.insertion (gradleWorld gradleText))
      { sampleFlags [g!"w"] with globalIgnores := [g!"X-1"] }).exit = 0 := by decide +kernel

/-- The line without a version is skipped with a message, and the exit code is 0. -/
theorem C89_skipped_sample :
    (run Sorter.insertion (gradleEnv.inWorld Sorter.insertion (gradleWorld g!"g:a\n")) (sampleFlags [g!"w"])).exit = 0 ∧
    runParserDiags (gradleWorld g!"g:a\n").parsers
      (readOf Sorter.insertion (gradleEnv.inWorld Sorter.insertion (gradleWorld g!"g:a\n")) (sampleFlags [g!"w"])).files =
      [.gradleLine g!"g:a"] := by decide +kernel

theorem sampleParsers_fair (file : Str → Option Str) : FairOrders { sampleParsers with file := file } :=
  ⟨fun _ => .refl _, fun _ => .refl _, fun _ _ _ => .rfl, fun _ => .refl _, fun _ => .refl _, fun _ => .refl _, fun _ => .refl _,
    fun _ => .refl _, fun _ => .refl _, fun _ => .refl _, fun _ _ _ => .refl _⟩

/-- The hypotheses of `C89_clean` and `C89_nothing_skipped` hold. -/
example : let W := gradleWorld gradleText
    let f := { sampleFlags [g!"w"] with globalIgnores := [g!"X-1"] }
    FairOrders W.parsers ∧ Discovers gradleEnv f.parseAs f.args [] g!"w/gradle.lockfile" ∧ parserOf [] g!"w/gradle.lockfile" = g!"gradle.lockfile" ∧
    Declares W.parsers g!"w/gradle.lockfile" g!"gradle.lockfile" (GradleEntry g!"g:a:1.0=runtimeClasspath") ∧
    GradleEntry g!"g:a:1.0=runtimeClasspath" ⟨g!"g:a", g!"1.0", [], g!"Maven", g!"Maven"⟩ ∧
    runParserDiags W.parsers (readOf Sorter.insertion (gradleEnv.inWorld Sorter.insertion W) f).files = [] ∧
    Affects numCmp (sampleAdvisory g!"Maven" g!"g:a" g!"1.0") ⟨g!"g:a", g!"1.0", [], g!"Maven", g!"Maven"⟩ := by
  refine ⟨sampleParsers_fair _, ?_, by decide, .gradle (content := gradleText) rfl (by decide +kernel) (.inl rfl), ?_, by decide +kernel, ?_⟩
  · exact .entry g!"w" [] g!"w" g!"gradle.lockfile" [(g!"gradle.lockfile", false)] (by decide) (.inl ⟨by decide, rfl, rfl⟩) rfl (by decide) (by decide)
  · exact ⟨g!"g:a:1.0=runtimeClasspath", g!"g", g!"a", g!"1.0=runtimeClasspath", g!"1.0",
      ⟨[], [], rfl, by simp [Spec.Blank], by simp [Spec.Blank], by decide, by decide⟩, by simp, by simp, rfl, by decide, by decide,
      ⟨by decide, .inr ⟨_, rfl⟩⟩, rfl⟩
  · exact ⟨_, List.mem_singleton.2 rfl, by decide, by decide +kernel, .inl (by decide)⟩

end Osv
