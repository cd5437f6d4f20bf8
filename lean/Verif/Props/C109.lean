import Verif.Props.C03
import Verif.Props.C90
import Verif.Props.C104
import Verif.Props.C108
import Verif.Props.C110
import Verif.Props.C111
import Verif.Props.C112
import Verif.Props.C114
import Verif.Props.C115
/-!
# C109: what makes a run fail, by the orders that the ecosystems publish

C104 with the orders of versions in place of the comparisons: semantic versions, PEP 440 for PyPI, and the orders of
NuGet, RubyGems, CRAN, Packagist and Maven.
-/
namespace Osv
open Str Spec

/-- The comparisons of the library, for the ecosystems whose order is known. -/
structure Compares (sem : Sem) (legacy : Str → Str) : Prop where
  semver : ∀ e ∈ Semantic.semverEcosystems, sem e = Semantic.semver
  python : sem g!"PyPI" = Pypi.pypi legacy
  nuget : sem g!"NuGet" = Semantic.nuget
  gems : sem g!"RubyGems" = GemVersion.gems
  cran : ∃ other, sem g!"CRAN" = CranVersion.cran other
  php : sem g!"Packagist" = Packagist.packagist
  maven : sem g!"Maven" = MavenVersion.maven

theorem semver_agrees : Agrees Semantic.semver Precedence.Good Precedence.Older := ⟨C96_semver_laws, fun hs ht => semver_older hs ht⟩

theorem compares_agrees {sem : Sem} {legacy : Str → Str} (h : Compares sem legacy) {e : Ecosystem} {good : Str → Prop}
    {older : Str → Str → Prop} (he : EcosystemOrder e good older) : AgreesOn (sem e) good older := by
  cases he with
  | php => rw [h.php]; exact packagist_agrees
  | maven => rw [h.maven]; exact maven_agrees
  | python => rw [h.python]; exact (pypi_agrees legacy).on
  | nuget => rw [h.nuget]; exact (nuget_agrees).on
  | gems => rw [h.gems]; exact (gems_agrees).on
  | cran => obtain ⟨other, e⟩ := h.cran; rw [e]; exact (cran_agrees other).on
  | crates => rw [h.semver _ (by decide)]; exact (semver_agrees).on
  | go => rw [h.semver _ (by decide)]; exact (semver_agrees).on
  | hex => rw [h.semver _ (by decide)]; exact (semver_agrees).on
  | npm => rw [h.semver _ (by decide)]; exact (semver_agrees).on
  | conan => rw [h.semver _ (by decide)]; exact (semver_agrees).on

theorem ApartBy.symm {older : Str → Str → Prop} {a b : RangeEvent} (h : ApartBy older a b) : ApartBy older b a := by
  refine ⟨fun hh => h.1 ⟨hh.2, hh.1⟩, fun hb ha => ?_⟩
  rcases h.2 ha hb with h | h | h
  · exact .inr (.inl h)
  · exact .inl h
  · exact .inr (.inr h.symm)

theorem IntervalBy.perm {older : Str → Str → Prop} {a b : List RangeEvent} (hp : a.Perm b) (v : Str) :
    IntervalBy older a v ↔ IntervalBy older b v := by
  unfold IntervalBy
  simp only [hp.mem_iff]

/-- Such ranges answer the same in any order of the events. -/
theorem AgreesOn.steady (S : Sorter) {sem : Sem} {pkg : PackageDetails} {good : Str → Prop} {older : Str → Str → Prop}
    (H : AgreesOn (sem pkg.compareAs) good older) (hv : good pkg.version) {o : OSV} (ho : RangesBy good older o) : World.Steady S sem pkg o := by
  intro a ha r hr es hp
  obtain ⟨-, h2, h3⟩ := ho a ha r hr
  rw [Bool.eq_iff_iff, C113_range S sem r pkg good older H hv (fun e he => (h2 e he).1) (fun e he => (h2 e he).2) h3,
    C113_range S sem ⟨r.type, es⟩ pkg good older H hv (fun e he => (h2 e (hp.mem_iff.1 he)).1) (fun e he => (h2 e (hp.mem_iff.1 he)).2)
      ((hp.pairwise_iff ApartBy.symm).2 h3), IntervalBy.perm hp]

/-- An advisory is one for a package exactly if it affects it by the order of the ecosystem, whatever the order of the events. -/
theorem C109_affected (S : Sorter) (sem : Sem) (legacy : Str → Str) (hsem : Compares sem legacy) (pkg : PackageDetails) (good : Str → Prop)
    (older : Str → Str → Prop) (he : EcosystemOrder pkg.compareAs good older) (hv : good pkg.version) (o : OSV)
    (ho : RangesBy good older o) : o.isAffected S sem pkg = true ↔ AffectsBy older o pkg :=
  C113_affected S sem pkg good older (compares_agrees hsem he) hv o ho

variable {env : Env} {W : World} {canon : Str → Option Str} {print : Char → Bool} {disk : Str → Option (Option Str)} {legacy : Str → Str}

/-- If the exit code is 0, then for every package in a lockfile of any format every advisory in the texts of the archive that affects it
by the order of its ecosystem is withdrawn, or it or another one for the same vulnerability is ignored on the command line or in the text
of the config. -/
theorem C109_clean (S : Sorter) (h : ReadsTexts env W canon print disk) (hsem : Compares W.sem legacy) (f : Flags)
    (hiter : ∀ l, (env.iter l).Perm l) (hP : FairOrders W.parsers) (hv : f.printVersion = false) (hle : f.listEcosystems = false)
    (hl : f.listPackages = false) (hud : f.useDatabases = true) (hc : f.noConfig = false ∨ f.noConfigDatabases = false)
    (hg : f.parseAs ≠ csvRowName) (h0 : (run S (env.inWorld S W) f).exit = 0) (want q : Str) (hd : Discovers env f.parseAs f.args want q)
    (n1 : want ≠ csvRowName) (n2 : want ≠ csvFileName) {entry : PackageDetails → Prop} (he : Declares W.parsers q (parserOf want q) entry)
    (p : PackageDetails) (hp : entry p) (hcfg : ∀ text, ConfigTextFor disk f q text → ∃ r, YmlDoc text r) :
    ∃ pkg es, entry pkg ∧ Archive W f pkg.ecosystem es ∧ ∀ good older, EcosystemOrder pkg.compareAs good older → good pkg.version →
      (∀ o, Published W.load (ecosystemDBConfig pkg.ecosystem) f.offline o → RangesBy good older o) →
      ∀ o, TextPublished canon es o → o.withdrawn = none → AffectsBy older o pkg → ∃ o', Linked o' o ∧ TextExcused disk f q o'.id := by
  obtain ⟨ps, hps, hall⟩ := default_steady S env W f hiter hP.go hP.order hP.reqOrder hv hle hl hud hc hg h0 want q hd n1 n2
  obtain ⟨pkg, hmem, hent⟩ := C89_parsed hP he hp hps
  obtain ⟨-, -, ⟨body, t, es, h1, h2⟩, h3⟩ := hall pkg hmem
  have ha : Archive W f pkg.ecosystem es := ⟨body, t, h1, h2⟩
  refine ⟨pkg, es, hent, ha, fun good older heo hgood hwf o ho hw haff => ?_⟩
  have H := compares_agrees hsem heo
  have hpub := published_of_text h ha ho
  obtain ⟨o', hl', hx⟩ := h3 (fun o ho => H.steady S hgood (hwf o ho)) o hpub hw
    ((C113_affected S W.sem pkg good older H hgood o (hwf o hpub)).2 haff)
  exact ⟨o', hl', C104_excused h hcfg hx⟩

/-- Turned around: an advisory that affects the package of an entry by the order of its ecosystem, and is neither withdrawn nor ignored,
makes the exit code different from 0. -/
theorem C109_reported (S : Sorter) (h : ReadsTexts env W canon print disk) (hsem : Compares W.sem legacy) (f : Flags)
    (hiter : ∀ l, (env.iter l).Perm l) (hP : FairOrders W.parsers) (hv : f.printVersion = false) (hle : f.listEcosystems = false)
    (hl : f.listPackages = false) (hud : f.useDatabases = true) (hc : f.noConfig = false ∨ f.noConfigDatabases = false)
    (hg : f.parseAs ≠ csvRowName) (want q : Str) (hd : Discovers env f.parseAs f.args want q) (n1 : want ≠ csvRowName)
    (n2 : want ≠ csvFileName) {entry : PackageDetails → Prop} (he : Declares W.parsers q (parserOf want q) entry) (p : PackageDetails)
    (hp : ∀ p', entry p' ↔ p' = p) (hcfg : ∀ text, ConfigTextFor disk f q text → ∃ r, YmlDoc text r) (good : Str → Prop)
    (older : Str → Str → Prop) (heo : EcosystemOrder p.compareAs good older) (hgood : good p.version) (es : List ZipEntry)
    (ha : Archive W f p.ecosystem es) (hwf : ∀ o, Published W.load (ecosystemDBConfig p.ecosystem) f.offline o → RangesBy good older o)
    (o : OSV) (ho : TextPublished canon es o) (hw : o.withdrawn = none) (haff : AffectsBy older o p)
    (hno : ∀ o', Linked o' o → ¬ TextExcused disk f q o'.id) : (run S (env.inWorld S W) f).exit ≠ 0 := by
  intro h0
  obtain ⟨pkg, es', h1, ha', h2⟩ := C109_clean S h hsem f hiter hP hv hle hl hud hc hg h0 want q hd n1 n2 he p ((hp p).2 rfl) hcfg
  obtain rfl := (hp pkg).1 h1
  obtain ⟨b, t, e1, e2⟩ := ha.fetched
  obtain ⟨b', t', e1', e2'⟩ := ha'.fetched
  rw [e1] at e1'
  cases e1'
  rw [e2] at e2'
  cases e2'
  obtain ⟨o', h3, h4⟩ := h2 good older heo hgood hwf o ho hw haff
  exact hno o' h3 h4

/-- Nothing is reported without reason: for every vulnerability in a report, the lockfile was asked for, the package is written in it, and
an advisory that is not withdrawn affects it by the order of its ecosystem, in a database that the lockfile requires, unless that is
the API. -/
theorem C109_justified (S : Sorter) (hsem : Compares W.sem legacy) (f : Flags) (hiter : ∀ l, (env.iter l).Perm l) (hP : FairOrders W.parsers)
    (hl : f.listPackages = false) (hn : f.noConfig = false) (hs : Started f (run S (env.inWorld S W) f).events)
    (hg : f.parseAs ≠ csvRowName) (rep : Report) (hrep : .report rep ∈ shown (run S (env.inWorld S W) f).events)
    (h1 : rep.lockfile.parsedAs ≠ csvRowName) (h2 : rep.lockfile.parsedAs ≠ csvFileName)
    (hlg : Legible W.parsers rep.lockfile.filePath rep.lockfile.parsedAs) (q : PkgReport) (hq : q ∈ rep.packages) (v : OSV)
    (hv : v ∈ q.vulnerabilities ++ q.ignored) (good : Str → Prop) (older : Str → Str → Prop)
    (heo : EcosystemOrder q.pkg.compareAs good older) (hgood : good q.pkg.version) :
    (∃ want, Discovers env f.parseAs f.args want rep.lockfile.filePath ∧ rep.lockfile.parsedAs = parserOf want rep.lockfile.filePath) ∧
    (∃ entry, Declares W.parsers rep.lockfile.filePath rep.lockfile.parsedAs entry ∧ entry q.pkg) ∧
    ∃ x ∈ (readOf S (env.inWorld S W) f).files, x.lockf = rep.lockfile ∧
    (v ∈ q.ignored ↔ Excused env f rep.lockfile.filePath v.id) ∧ ∃ c d : DBConfig,
      Required f ((readOf S (env.inWorld S W) f).cells.getD x.config {}).databases x.lockf.packages c ∧
      d.identifier = c.identifier ∧
      (d.type = g!"api" ∨
        ((∀ o ∈ advisoriesOf W.load d f.offline, RangesBy good older o) →
          ∃ o ∈ advisoriesOf W.load d f.offline, v.id = o.id ∧ v.aliases = o.aliases ∧ o.withdrawn = none ∧
            AffectsBy older o q.pkg ∧
            ((d.workingDirectory = [] ∨ ∃ w, d.workingDirectory = w ++ g!"/") → Published W.load d f.offline o))) := by
  have H := compares_agrees hsem heo
  obtain ⟨want, hd, hpa, -⟩ := C90_source S env W f hs hg _ hrep h1 h2
  obtain ⟨x, hx, hxl, hpk, hex, c, d, h5, h6, h7⟩ := reported_steady S env W f hiter hl hn hs rep hrep q hq v hv
  refine ⟨⟨want, hd, hpa⟩, ?_, x, hx, hxl, hex, c, d, h5, h6, h7.imp_right fun h hwf => ?_⟩
  · rw [hxl] at hpk
    exact (C90_packages S env W f hP hs hg _ hrep h1 h2).1 hlg _ hpk
  · obtain ⟨o, ho, e1, e2, e3, e4, e5⟩ := h fun o ho => H.steady S hgood (hwf o ho)
    exact ⟨o, ho, e1, e2, e3, (C113_affected S W.sem q.pkg good older H hgood o (hwf o ho)).1 e4, e5⟩

/-! ### A run on texts -/

/-- The comparisons of the library. -/
def libraryWorld (W : World) (canon : Str → Option Str) (print : Char → Bool) (other : YamlReader) (legacy : Str → Str) : World :=
  textWorld { W with sem := fun e =>
    if e = g!"PyPI" then Pypi.pypi legacy else if e = g!"NuGet" then Semantic.nuget else if e = g!"RubyGems" then GemVersion.gems
    else if e = g!"CRAN" then CranVersion.cran (fun _ => 0) else if e = g!"Packagist" then Packagist.packagist
    else if e = g!"Maven" then MavenVersion.maven else W.sem e }
    canon print other

theorem C109_readers (env : Env) (W : World) (canon : Str → Option Str) (print : Char → Bool) (other : YamlReader)
    (disk : Str → Option (Option Str)) (legacy : Str → Str) :
    ReadsTexts (textEnv env other disk) (libraryWorld W canon print other legacy) canon print disk ∧
      Compares (libraryWorld W canon print other legacy).sem legacy := by
  have key : ∀ e, e ∉ Semantic.semverEcosystems → (libraryWorld W canon print other legacy).sem e =
      if e = g!"PyPI" then Pypi.pypi legacy else if e = g!"NuGet" then Semantic.nuget else if e = g!"RubyGems" then GemVersion.gems
      else if e = g!"CRAN" then CranVersion.cran (fun _ => 0) else if e = g!"Packagist" then Packagist.packagist
      else if e = g!"Maven" then MavenVersion.maven else W.sem e := by
    intro e h
    unfold libraryWorld textWorld
    dsimp only
    rw [if_neg h]
  refine ⟨C104_readers _ _ _ _ _ _, fun e he => if_pos he, ?_, ?_, ?_, ⟨(fun _ => 0), ?_⟩, ?_, ?_⟩
  · rw [key _ (by decide)]; rfl
  · rw [key _ (by decide)]; rfl
  · rw [key _ (by decide)]; rfl
  · rw [key _ (by decide)]; rfl
  · rw [key _ (by decide)]; rfl
  · rw [key _ (by decide)]; rfl

def C109_env : Env := textEnv
  { sampleEnv with path := fun p => if p = g!"w" then .dir [(g!"poetry.lock", false)] else .cannotOpen } (fun _ => none) (fun _ => none)

def C109_advisory : Str := g!"{\"id\":\"PYSEC-1\",\"modified\":\"2021-10-19T22:14:35Z\",\"published\":\"2020-11-18T12:00:00.000Z\",\"affected\":[{\"package\":{\"name\":\"a\",\"ecosystem\":\"PyPI\"},\"ranges\":[{\"type\":\"ECOSYSTEM\",\"events\":[{\"introduced\":\"1.0rc1\"},{\"fixed\":\"1.0.post1\"}]}]}]}"

def C109_world (version : Str) : World := libraryWorld
  { sampleWorld (sampleAdvisory [] [] []) with
    parsers := { sampleParsers with file := fun p =>
      if p = g!"w/poetry.lock" then some (g!"[[package]]\nname = 'a'\nversion = '" ++ (version ++ g!"'\n")) else none }
    load := { (sampleWorld (sampleAdvisory [] [] [])).load with unzip := fun _ => some [⟨g!"PYSEC-1.json", some C109_advisory⟩] } }
  (canonWith fun _ => none) (fun _ => true) (fun _ => none) id

example : (run Sorter.insertion (C109_env.inWorld Sorter.insertion (C109_world g!"1.0.0")) (sampleFlags [g!"w"])).exit = 1 ∧
    (run Sorter.insertion (C109_env.inWorld Sorter.insertion (C109_world g!"1.0-RC.2")) (sampleFlags [g!"w"])).exit = 1 ∧
    (run Sorter.insertion (C109_env.inWorld Sorter.insertion (C109_world g!"1.0b3")) (sampleFlags [g!"w"])).exit = 0 ∧
    (run Sorter.insertion (C109_env.inWorld Sorter.insertion (C109_world g!"1.0-1")) (sampleFlags [g!"w"])).exit = 0 := by
  decide +kernel

def C109_gem_advisory : Str := g!"{\"id\":\"GHSA-1\",\"modified\":\"2021-10-19T22:14:35Z\",\"published\":\"2020-11-18T12:00:00.000Z\",\"affected\":[{\"package\":{\"name\":\"a\",\"ecosystem\":\"RubyGems\"},\"ranges\":[{\"type\":\"ECOSYSTEM\",\"events\":[{\"introduced\":\"1.0.rc1\"},{\"fixed\":\"1.0.10\"}]}]}]}"

def C109_gem_env : Env := textEnv
  { sampleEnv with path := fun p => if p = g!"w" then .dir [(g!"Gemfile.lock", false)] else .cannotOpen } (fun _ => none) (fun _ => none)

def C109_gem_world (version : Str) : World := libraryWorld
  { sampleWorld (sampleAdvisory [] [] []) with
    parsers := { sampleParsers with file := fun p =>
      if p = g!"w/Gemfile.lock" then some (g!"GEM\n  remote: https://rubygems.org/\n  specs:\n    a (" ++ (version ++ g!")\n")) else none }
    load := { (sampleWorld (sampleAdvisory [] [] [])).load with unzip := fun _ => some [⟨g!"GHSA-1.json", some C109_gem_advisory⟩] } }
  (canonWith fun _ => none) (fun _ => true) (fun _ => none) id

example : (run Sorter.insertion (C109_gem_env.inWorld Sorter.insertion (C109_gem_world g!"1.0.9")) (sampleFlags [g!"w"])).exit = 1 ∧
    (run Sorter.insertion (C109_gem_env.inWorld Sorter.insertion (C109_gem_world g!"1.0.rc.1.0")) (sampleFlags [g!"w"])).exit = 1 ∧
    (run Sorter.insertion (C109_gem_env.inWorld Sorter.insertion (C109_gem_world g!"1.0.beta2")) (sampleFlags [g!"w"])).exit = 0 ∧
    (run Sorter.insertion (C109_gem_env.inWorld Sorter.insertion (C109_gem_world g!"1.0.10")) (sampleFlags [g!"w"])).exit = 0 := by
  decide +kernel

def C109_maven_advisory : Str := g!"{\"id\":\"GHSA-2\",\"modified\":\"2021-10-19T22:14:35Z\",\"published\":\"2020-11-18T12:00:00.000Z\",\"affected\":[{\"package\":{\"name\":\"a:b\",\"ecosystem\":\"Maven\"},\"ranges\":[{\"type\":\"ECOSYSTEM\",\"events\":[{\"introduced\":\"1.0-rc1\"},{\"fixed\":\"1.0.10\"}]}]}]}"

def C109_maven_env : Env := textEnv
  { sampleEnv with path := fun p => if p = g!"w" then .dir [(g!"gradle.lockfile", false)] else .cannotOpen } (fun _ => none) (fun _ => none)

def C109_maven_world (version : Str) : World := libraryWorld
  { sampleWorld (sampleAdvisory [] [] []) with
    parsers := { sampleParsers with file := fun p =>
      if p = g!"w/gradle.lockfile" then some (g!"a:b:" ++ (version ++ g!"=compileClasspath\n")) else none }
    load := { (sampleWorld (sampleAdvisory [] [] [])).load with unzip := fun _ => some [⟨g!"GHSA-2.json", some C109_maven_advisory⟩] } }
  (canonWith fun _ => none) (fun _ => true) (fun _ => none) id

example : (run Sorter.insertion (C109_maven_env.inWorld Sorter.insertion (C109_maven_world g!"1.Final")) (sampleFlags [g!"w"])).exit = 1 ∧
    (run Sorter.insertion (C109_maven_env.inWorld Sorter.insertion (C109_maven_world g!"1-CR2")) (sampleFlags [g!"w"])).exit = 1 ∧
    (run Sorter.insertion (C109_maven_env.inWorld Sorter.insertion (C109_maven_world g!"1.0b3")) (sampleFlags [g!"w"])).exit = 0 ∧
    (run Sorter.insertion (C109_maven_env.inWorld Sorter.insertion (C109_maven_world g!"1.0.10-sp")) (sampleFlags [g!"w"])).exit = 0 := by
  decide +kernel

/-- An advisory and a package that meet the hypotheses of C109_affected. -/
example : ∃ (o : OSV) (pkg : PackageDetails), EcosystemOrder pkg.compareAs Pep440.Good Pep440.Older ∧ Pep440.Good pkg.version ∧
    RangesBy Pep440.Good Pep440.Older o ∧ AffectsBy Pep440.Older o pkg := by
  have g1 := C108_sample_release '1' '1' 1 1 (.inl rfl) (by decide) (.inl rfl) (by decide) (by decide)
  have g2 := C108_sample_release '2' '0' 2 0 (.inl rfl) (by decide) (.inl rfl) (by decide) (by decide)
  let r : AffectsRange := ⟨g!"ECOSYSTEM", [{ introduced := g!"0" }, { fixed := g!"2.0" }]⟩
  let o : OSV := { (default : OSV) with id := g!"A", affected := [{ package := ⟨g!"a", g!"PyPI"⟩, ranges := [r], versions := [] }] }
  let pkg : PackageDetails := { name := g!"a", version := g!"1.1", ecosystem := g!"PyPI", compareAs := g!"PyPI" }
  have ho : RangesBy Pep440.Good Pep440.Older o := by
    intro a ha r' hr
    obtain rfl := List.mem_singleton.mp ha
    obtain rfl := List.mem_singleton.mp hr
    refine ⟨.inl rfl, ?_, List.Pairwise.cons ?_ (List.pairwise_singleton ..)⟩
    · simp only [r, List.mem_cons, List.not_mem_nil, or_false, forall_eq_or_imp, forall_eq]
      exact ⟨⟨⟨.inr (.inl rfl), .inl rfl, .inl rfl⟩, .introduced _ (by decide)⟩, ⟨.inl rfl, .inr g2, .inl rfl⟩, .fixed _ (by decide)⟩
    · intro b hb
      rw [List.mem_singleton.mp hb]
      exact ⟨by decide, fun h => absurd rfl h⟩
  have hs := (C109_readers C109_env (C109_world []) (fun _ => none) (fun _ => true) (fun _ => none) (fun _ => none) id).2
  refine ⟨o, pkg, .python, g1, ho, ?_⟩
  rw [← C109_affected Sorter.insertion _ id hs pkg _ _ .python g1 o ho]
  decide +kernel

#print axioms C109_affected
#print axioms C109_clean
#print axioms C109_reported
#print axioms C109_justified
#print axioms C109_readers

end Osv
