import Verif.Lemmas.EndToEnd
import Verif.Lemmas.OwnConfig
import Verif.Props.C31
import Verif.Props.C33
import Verif.Props.C67
import Verif.Props.C68
/-!
# C66 Exit code 0 means that no package is affected

This connects the parts: discovery of lockfiles, parsing, loading databases, matching, merging and ignoring. It is false as such,
see `C66_counterexample`; the partial theorems say under which conditions it holds.
-/
namespace Osv
open Spec World

/-- The full property. If a run ends with exit code 0, each advisory in a database that must be used for a lockfile and that affects
one of its packages is ignored, itself or as another advisory for the same vulnerability. -/
def C66_full : Prop := ∀ (S : Sorter) (env : Env) (W : World) (f : Flags), (∀ l, (env.iter l).Perm l) →
  f.printVersion = false → f.listEcosystems = false → f.listPackages = false →
  (run S (env.inWorld S W) f).exit = 0 →
  ∀ x ∈ (readOf S (env.inWorld S W) f).files, ∀ pkg ∈ x.lockf.packages, CmpLaws (W.sem pkg.compareAs) →
  ∀ c, Required f ((readOf S (env.inWorld S W) f).cells.getD x.config {}).databases x.lockf.packages c →
  (∀ o, Published W.load c f.offline o → WellFormedOSV (W.sem pkg.compareAs) o) →
  ∀ o, Published W.load c f.offline o → o.withdrawn = none → Affects (W.sem pkg.compareAs) o pkg →
  ∃ o', Related o' o ∧ Excused env f x.lockf.filePath o'.id

theorem excused_inWorld (env : Env) (S : Sorter) (W : World) (f : Flags) (q id : Str) :
    Excused (env.inWorld S W) f q id ↔ Excused env f q id := by
  have h : ∀ p r, ConfigFor (env.inWorld S W) f q p r ↔ ConfigFor env f q p r := by
    intro p r
    constructor <;> intro h <;> cases h
    · exact .explicit _ ‹_› ‹_› ‹_›
    · exact .yml _ ‹_› ‹_› ‹_›
    · exact .yaml _ ‹_› ‹_› ‹_› ‹_›
    · exact .explicit _ ‹_› ‹_› ‹_›
    · exact .yml _ ‹_› ‹_› ‹_›
    · exact .yaml _ ‹_› ‹_› ‹_› ‹_›
  unfold Excused
  simp only [h]

/-- The property with what the program takes for affected, where the order of events does not matter. -/
theorem clean_exit_steady (S : Sorter) (env : Env) (W : World) (f : Flags) (hiter : ∀ l, (env.iter l).Perm l)
    (hv : f.printVersion = false) (hle : f.listEcosystems = false) (hl : f.listPackages = false)
    (hc : f.noConfig = false ∨ f.noConfigDatabases = false) (h0 : (run S (env.inWorld S W) f).exit = 0)
    (x : FileEntry) (hx : x ∈ (readOf S (env.inWorld S W) f).files) (pkg : PackageDetails) (hpkg : pkg ∈ x.lockf.packages)
    (heco : ':' ∉ pkg.ecosystem) (c : DBConfig)
    (hreq : Required f ((readOf S (env.inWorld S W) f).cells.getD x.config {}).databases x.lockf.packages c) :
    ∃ d ∈ neededConfigs (env.inWorld S W) f (readOf S (env.inWorld S W) f),
      d.identifier = c.identifier ∧ (d.type = g!"zip" ∨ d.type = g!"api" ∨ d.type = g!"dir") ∧
      (d.type = g!"zip" → ∃ body t es, W.load.fetch d.url d.workingDirectory f.offline = .ok body t ∧ W.load.unzip body = some es) ∧
      ((∀ o ∈ advisoriesOf W.load d f.offline, Steady S W.sem pkg o) →
      ∀ o, Published W.load d f.offline o → o.withdrawn = none → o.isAffected S W.sem pkg = true →
      ∃ o', Linked o' o ∧ Excused env f x.lockf.filePath o'.id) := by
  obtain ⟨z1, z2, z3, z4, z5, z6⟩ := C22_exit_zero_partial S (env.inWorld S W) f hv hle h0
  obtain ⟨p, hp⟩ := started_go S (env.inWorld S W) f (exit_zero_started S (env.inWorld S W) f hv hle h0)
  obtain ⟨i, hi⟩ := List.getElem?_of_mem hx
  have he := z4 x hx
  obtain ⟨d, hdm, hde, hmine⟩ := used S (env.inWorld S W) f (inWorld_keeps env S W) hiter hl p hp x hx he c
    (hc.imp_right .inl) hreq
  have hload := z5 hl d hdm
  rcases hdb : ((env.inWorld S W).load d f.offline f.batchSize
    (allPackageNames (env.inWorld S W) (readOf S (env.inWorld S W) f).files)).1 with _ | db
  · exact absurd hdb hload
  have htype := worldLoad_type S W d f.offline f.batchSize _ db hdb
  refine ⟨d, hdm, hde, htype, worldLoad_archive S W d f.offline f.batchSize _ db hdb, ?_⟩
  intro hst o ho hwd haff
  have hna : d.type ≠ g!"api" := by
    cases ho with
    | zip body t es e text type => rw [type]; decide
    | dir path name text type => rw [type]; decide
  have hans := worldLoad_local S W d f.offline f.batchSize _ db hdb hna i x.lockf.packages
  obtain ⟨rep, hrepm, -, -, hcov⟩ :=
    covered S (env.inWorld S W) f hl p hp i x hi he db (hmine db hdb) _ hans
  obtain ⟨k, hk⟩ := List.getElem?_of_mem hpkg
  have hname := name_mem (env.inWorld S W) hiter (readOf S (env.inWorld S W) f).files x hx pkg hpkg
  obtain ⟨vs, v, hvs, hvm, hrel⟩ := answer_complete S W.sem (advisoriesOf W.load d f.offline)
    (allPackageNames (env.inWorld S W) (readOf S (env.inWorld S W) f).files) (W.history d i) x.lockf.packages k pkg hk hst
    heco hname o (published_mem _ _ _ _ ho) hwd haff
  obtain ⟨q, hq, o', hrel', hor⟩ := hcov k vs v hvs hvm (List.getElem?_eq_some_iff.1 hk).1
  refine ⟨o', ⟨v, hrel', hrel⟩, ?_⟩
  rcases hor with hin | hig
  · exact absurd ⟨q, List.mem_of_getElem? hq, o', hin⟩ (z2 _ hrepm)
  · exact (excused_inWorld env S W f _ _).1 ((mem_ignores S (env.inWorld S W) f hl p hp x hx he _).1 hig.2)

/-- The property for packages whose ecosystem has no suffix, unless all lockfiles share one config. As databases with the same
identifier are loaded only once, it is about the one that was loaded; if that is an archive, it was fetched and opened. The ignored advisory may be linked through a third one. -/
theorem C66_clean_exit_partial (S : Sorter) (env : Env) (W : World) (f : Flags) (hiter : ∀ l, (env.iter l).Perm l)
    (hv : f.printVersion = false) (hle : f.listEcosystems = false) (hl : f.listPackages = false)
    (hc : f.noConfig = false ∨ f.noConfigDatabases = false) (h0 : (run S (env.inWorld S W) f).exit = 0)
    (x : FileEntry) (hx : x ∈ (readOf S (env.inWorld S W) f).files) (pkg : PackageDetails) (hpkg : pkg ∈ x.lockf.packages)
    (heco : ':' ∉ pkg.ecosystem) (c : DBConfig)
    (hreq : Required f ((readOf S (env.inWorld S W) f).cells.getD x.config {}).databases x.lockf.packages c) :
    ∃ d ∈ neededConfigs (env.inWorld S W) f (readOf S (env.inWorld S W) f),
      d.identifier = c.identifier ∧ (d.type = g!"zip" ∨ d.type = g!"api" ∨ d.type = g!"dir") ∧
      (d.type = g!"zip" → ∃ body t es, W.load.fetch d.url d.workingDirectory f.offline = .ok body t ∧ W.load.unzip body = some es) ∧
      (CmpLaws (W.sem pkg.compareAs) → (∀ o ∈ advisoriesOf W.load d f.offline, WellFormedOSV (W.sem pkg.compareAs) o) →
      ∀ o, Published W.load d f.offline o → o.withdrawn = none → Affects (W.sem pkg.compareAs) o pkg →
      ∃ o', Linked o' o ∧ Excused env f x.lockf.filePath o'.id) := by
  obtain ⟨d, h1, h2, h3, h4, h5⟩ := clean_exit_steady S env W f hiter hv hle hl hc h0 x hx pkg hpkg heco c hreq
  refine ⟨d, h1, h2, h3, h4, fun hlaws hwf o ho hwd haff => ?_⟩
  have hmem := published_mem _ _ _ _ ho
  exact h5 (fun o ho => steady_of_laws S hlaws (hwf o ho)) o ho hwd ((isAffected_iff_affects S W.sem o pkg hlaws (hwf o hmem)).2 haff)

/-- Configs with the same identifier as one without working directory and without `#` in its URL. -/
theorem identifier_plain (c d : DBConfig) (hw : c.workingDirectory = []) (hu : '#' ∉ c.url) (hct : '#' ∉ c.type)
    (hdt : '#' ∉ d.type) (h : d.identifier = c.identifier) :
    d.type = c.type ∧ d.url = c.url ∧ d.workingDirectory = c.workingDirectory := by
  refine C31_no_hash_partial d c hdt hct ?_ hu h
  rw [identifier_eq, identifier_eq] at h
  obtain ⟨-, h2⟩ := append_hash_inj _ _ _ _ hdt hct (.inr ⟨_, rfl⟩) (.inr ⟨_, rfl⟩) h
  rw [if_pos hw, List.append_nil] at h2
  injection h2 with _ h2
  intro hm
  apply hu
  rw [← h2]
  exact List.mem_append_left _ hm

/-- Only type, URL and working directory of a config matter for its advisories. -/
theorem advisoriesOf_congr (L : LoadEnv) (c d : DBConfig) (off : Bool) (h1 : d.type = c.type) (h2 : d.url = c.url)
    (h3 : d.workingDirectory = c.workingDirectory) : advisoriesOf L d off = advisoriesOf L c off := by
  unfold advisoriesOf
  rw [h1, h2, h3]

theorem published_congr (L : LoadEnv) (c d : DBConfig) (off : Bool) (h1 : d.type = c.type) (h2 : d.url = c.url)
    (h3 : d.workingDirectory = c.workingDirectory) (o : OSV) (h : Published L c off o) : Published L d off o := by
  obtain ⟨n, t, u, w⟩ := c
  obtain ⟨n', t', u', w'⟩ := d
  dsimp only at h1 h2 h3
  subst h1 h2 h3
  cases h with
  | zip body t es e text a1 a2 a3 a4 a5 a6 a7 a8 => exact .zip body t es e text a1 a2 a3 a4 a5 a6 a7 a8
  | dir path name text a b c d e => exact .dir path name text a b c d e

theorem ecosystem_no_hash : ∀ x ∈ formatEcosystems, '#' ∉ x.2 := by decide

/-- A config with the same identifier as the default one of an ecosystem. -/
theorem default_plain (parser : Str) (pkg : PackageDetails) (hof : OfFormat parser pkg) (d : DBConfig)
    (hdt : d.type = g!"zip" ∨ d.type = g!"api" ∨ d.type = g!"dir") (hdi : d.identifier = (ecosystemDBConfig pkg.ecosystem).identifier) :
    d.type = g!"zip" ∧ d.url = (ecosystemDBConfig pkg.ecosystem).url ∧ d.workingDirectory = [] := by
  have hhash : '#' ∉ (ecosystemDBConfig pkg.ecosystem).url := by
    have := ecosystem_no_hash _ hof.1
    unfold ecosystemDBConfig
    simp only [List.mem_append, not_or]
    exact ⟨⟨by decide, this⟩, by decide⟩
  have hdth : '#' ∉ d.type := by
    rcases hdt with h | h | h <;> rw [h] <;> decide
  exact identifier_plain (ecosystemDBConfig pkg.ecosystem) d rfl hhash (show '#' ∉ g!"zip" by decide) hdth hdi

/-- A discovered lockfile is one of the files of the run, with the packages that its parser found. -/
theorem discovered_entry (S : Sorter) (env : Env) (W : World) (f : Flags)
    (hv : f.printVersion = false) (hle : f.listEcosystems = false) (hg : f.parseAs ≠ csvRowName)
    (h0 : (run S (env.inWorld S W) f).exit = 0) (want q : Str) (hd : Discovers env f.parseAs f.args want q)
    (n1 : want ≠ csvRowName) (n2 : want ≠ csvFileName) :
    ∃ ps, parseFile W.parsers (parserOf want q) q = some (ps, false) ∧
      ∃ x ∈ (readOf S (env.inWorld S W) f).files, x.lockf = ⟨q, parserOf want q, S.sort pkgLess ps⟩ := by
  have hs := exit_zero_started S (env.inWorld S W) f hv hle h0
  have hd' : Discovers (env.inWorld S W) f.parseAs f.args want q := by
    cases hd with
    | file arg parser path a b c => exact .file arg parser path a b c
    | entry arg parser path name entries a b c d e => exact .entry arg parser path name entries a b c d e
  obtain ⟨hok, hbad⟩ := C33_run S (env.inWorld S W) f hs hg want q hd' n1 n2
  have hgood : parserOf want q ∈ parserNames ∧ ((env.inWorld S W).parse (parserOf want q) q).2 = false ∧
      (LocalConfigs f → ∃ c, findConfig (env.inWorld S W).validURL (env.inWorld S W).config (Path.dir q) = .ok c) := by
    refine Classical.byContradiction fun hn => ?_
    rw [(hbad hn).1] at h0; cases h0
  obtain ⟨r, hrm, hrl⟩ := hok hgood
  obtain ⟨-, -, -, z4, -, z6⟩ := C22_exit_zero_partial S (env.inWorld S W) f hv hle h0
  have hmem : lockfileOf r ∈ (readOf S (env.inWorld S W) f).files.map (·.lockf) := by
    rw [← z6]; exact List.mem_map_of_mem hrm
  obtain ⟨x, hx, hxl⟩ := List.mem_map.1 hmem
  rw [hrl] at hxl
  have hparse : (env.inWorld S W).parse (parserOf want q) q = (parseFile W.parsers (parserOf want q) q).getD ([], true) := rfl
  have herr := hgood.2.1
  rw [hparse] at herr hxl
  cases hpf : parseFile W.parsers (parserOf want q) q with
  | none => rw [hpf] at herr; cases herr
  | some res =>
    obtain ⟨ps, e⟩ := res
    rw [hpf] at herr hxl
    dsimp only [Option.getD_some] at herr hxl
    subst herr
    exact ⟨ps, rfl, x, hx, hxl⟩

theorem discovered_file (S : Sorter) (env : Env) (W : World) (f : Flags)
    (hv : f.printVersion = false) (hle : f.listEcosystems = false) (hg : f.parseAs ≠ csvRowName)
    (h0 : (run S (env.inWorld S W) f).exit = 0) (want q : Str) (hd : Discovers env f.parseAs f.args want q)
    (n1 : want ≠ csvRowName) (n2 : want ≠ csvFileName) :
    ∃ ps, parseFile W.parsers (parserOf want q) q = some (ps, false) ∧
      ∃ x ∈ (readOf S (env.inWorld S W) f).files, x.lockf.filePath = q ∧ x.lockf.packages = S.sort pkgLess ps := by
  obtain ⟨ps, h, x, hx, e⟩ := discovered_entry S env W f hv hle hg h0 want q hd n1 n2
  exact ⟨ps, h, x, hx, by rw [e], by rw [e]⟩

/-- `C66_default_partial` with what the program takes for affected, where the order of events does not matter. -/
theorem default_steady (S : Sorter) (env : Env) (W : World) (f : Flags) (hiter : ∀ l, (env.iter l).Perm l)
    (hgo : ∀ m, (W.parsers.iterGo m).Perm m) (ho : ∀ l, (W.parsers.order l).Perm l) (hr : ∀ p r l, (W.parsers.reqOrder p r l).Perm l)
    (hv : f.printVersion = false) (hle : f.listEcosystems = false) (hl : f.listPackages = false)
    (hud : f.useDatabases = true) (hc : f.noConfig = false ∨ f.noConfigDatabases = false) (hg : f.parseAs ≠ csvRowName)
    (h0 : (run S (env.inWorld S W) f).exit = 0) (want q : Str) (hd : Discovers env f.parseAs f.args want q)
    (n1 : want ≠ csvRowName) (n2 : want ≠ csvFileName) :
    ∃ ps, parseFile W.parsers (parserOf want q) q = some (ps, false) ∧
      ∀ pkg ∈ ps, OfFormat (parserOf want q) pkg ∧
        (∃ d ∈ neededConfigs (env.inWorld S W) f (readOf S (env.inWorld S W) f),
          d.type = g!"zip" ∧ d.url = (ecosystemDBConfig pkg.ecosystem).url ∧ d.workingDirectory = []) ∧
        (∃ body t es, W.load.fetch (ecosystemDBConfig pkg.ecosystem).url [] f.offline = .ok body t ∧ W.load.unzip body = some es) ∧
        ((∀ o, Published W.load (ecosystemDBConfig pkg.ecosystem) f.offline o → Steady S W.sem pkg o) →
          ∀ o, Published W.load (ecosystemDBConfig pkg.ecosystem) f.offline o → o.withdrawn = none →
          o.isAffected S W.sem pkg = true → ∃ o', Linked o' o ∧ Excused env f q o'.id) := by
  obtain ⟨ps, hpf, x, hx, hxp, hxl⟩ := discovered_file S env W f hv hle hg h0 want q hd n1 n2
  refine ⟨ps, hpf, ?_⟩
  intro pkg hpkg
  have hof := C67_ecosystem W.parsers hgo ho hr _ _ _ _ hpf pkg hpkg
  refine ⟨hof, ?_⟩
  obtain ⟨hne, hcolon⟩ : pkg.ecosystem ≠ [] ∧ ':' ∉ pkg.ecosystem := by
    have := C67_formats.2.2 _ hof.1
    exact ⟨this.2, this.1⟩
  have hpx : pkg ∈ x.lockf.packages := by rw [hxl]; exact ((S.perm pkgLess ps).mem_iff).2 hpkg
  obtain ⟨d, hdm, hdi, hdt, hda, hd⟩ := clean_exit_steady S env W f hiter hv hle hl hc h0 x hx pkg hpx hcolon
    (ecosystemDBConfig pkg.ecosystem) (.inr (.inr ⟨hud, pkg, hpx, hne, rfl⟩))
  obtain ⟨e1, e2, e3⟩ := default_plain _ pkg hof d hdt hdi
  refine ⟨⟨d, hdm, e1, e2, e3⟩, by
    have h := hda e1
    rw [e2, show d.workingDirectory = [] from e3] at h
    exact h, ?_⟩
  intro hst o hpub hwd haff
  obtain ⟨o', hlink, hex⟩ := hd (by
      rw [advisoriesOf_congr _ _ _ _ e1 e2 e3]
      exact fun o ho => hst o (mem_published _ _ _ _ (.inl rfl) (.inl rfl) ho)) o
    (published_congr _ _ _ _ e1 e2 e3 o hpub) hwd haff
  refine ⟨o', hlink, ?_⟩
  rw [hxp] at hex
  exact hex

/-- The whole way for a lockfile given as an argument or found in a directory, with the default databases. If the exit code is 0, the
file was parsed, the archives of the ecosystems of its packages were fetched, and no package in it is affected by an advisory of the database of its ecosystem, unless it is ignored. -/
theorem C66_default_partial (S : Sorter) (env : Env) (W : World) (f : Flags) (hiter : ∀ l, (env.iter l).Perm l)
    (hgo : ∀ m, (W.parsers.iterGo m).Perm m) (ho : ∀ l, (W.parsers.order l).Perm l) (hr : ∀ p r l, (W.parsers.reqOrder p r l).Perm l)
    (hv : f.printVersion = false) (hle : f.listEcosystems = false) (hl : f.listPackages = false)
    (hud : f.useDatabases = true) (hc : f.noConfig = false ∨ f.noConfigDatabases = false) (hg : f.parseAs ≠ csvRowName)
    (h0 : (run S (env.inWorld S W) f).exit = 0) (want q : Str) (hd : Discovers env f.parseAs f.args want q)
    (n1 : want ≠ csvRowName) (n2 : want ≠ csvFileName) :
    ∃ ps, parseFile W.parsers (parserOf want q) q = some (ps, false) ∧
      ∀ pkg ∈ ps, OfFormat (parserOf want q) pkg ∧
        (∃ d ∈ neededConfigs (env.inWorld S W) f (readOf S (env.inWorld S W) f),
          d.type = g!"zip" ∧ d.url = (ecosystemDBConfig pkg.ecosystem).url ∧ d.workingDirectory = []) ∧
        (∃ body t es, W.load.fetch (ecosystemDBConfig pkg.ecosystem).url [] f.offline = .ok body t ∧ W.load.unzip body = some es) ∧
        (CmpLaws (W.sem pkg.compareAs) →
          (∀ o, Published W.load (ecosystemDBConfig pkg.ecosystem) f.offline o → WellFormedOSV (W.sem pkg.compareAs) o) →
          ∀ o, Published W.load (ecosystemDBConfig pkg.ecosystem) f.offline o → o.withdrawn = none →
          Affects (W.sem pkg.compareAs) o pkg → ∃ o', Linked o' o ∧ Excused env f q o'.id) := by
  obtain ⟨ps, hpf, h⟩ := default_steady S env W f hiter hgo ho hr hv hle hl hud hc hg h0 want q hd n1 n2
  refine ⟨ps, hpf, fun pkg hpkg => ?_⟩
  obtain ⟨h1, h2, h3, h4⟩ := h pkg hpkg
  refine ⟨h1, h2, h3, fun hlaws hwf o hpub hwd haff => ?_⟩
  exact h4 (fun o ho => steady_of_laws S hlaws (hwf o ho)) o hpub hwd ((isAffected_iff_affects S W.sem o pkg hlaws (hwf o hpub)).2 haff)

/-- The converse with what the program takes for affected, where the order of events does not matter. -/
theorem reported_steady (S : Sorter) (env : Env) (W : World) (f : Flags) (hiter : ∀ l, (env.iter l).Perm l)
    (hl : f.listPackages = false) (hn : f.noConfig = false) (hs : Started f (run S (env.inWorld S W) f).events)
    (rep : Report) (hrep : .report rep ∈ shown (run S (env.inWorld S W) f).events) (q : PkgReport) (hq : q ∈ rep.packages) (v : OSV)
    (hv : v ∈ q.vulnerabilities ++ q.ignored) :
    ∃ x ∈ (readOf S (env.inWorld S W) f).files, x.lockf = rep.lockfile ∧ q.pkg ∈ x.lockf.packages ∧
    (v ∈ q.ignored ↔ Excused env f rep.lockfile.filePath v.id) ∧
    ∃ c d : DBConfig,
      Required f ((readOf S (env.inWorld S W) f).cells.getD x.config {}).databases x.lockf.packages c ∧
      d.identifier = c.identifier ∧
      (d.type = g!"api" ∨
        ((∀ o ∈ advisoriesOf W.load d f.offline, Steady S W.sem q.pkg o) →
          ∃ o ∈ advisoriesOf W.load d f.offline, v.id = o.id ∧ v.aliases = o.aliases ∧ o.withdrawn = none ∧
            o.isAffected S W.sem q.pkg = true ∧
            ((d.workingDirectory = [] ∨ ∃ w, d.workingDirectory = w ++ g!"/") → Published W.load d f.offline o))) := by
  have hrep0 := hrep
  have hown := C68_own_ignores S (env.inWorld S W) f hl hs rep hrep q hq
  obtain ⟨p, hp⟩ := started_go S (env.inWorld S W) f hs
  obtain ⟨h1, h2, h3⟩ := prep_read S (env.inWorld S W) f p hp
  rw [run_shown, (runBody_go S (env.inWorld S W) f p hp).1] at hrep
  obtain ⟨i, x, hxi, he, rfl⟩ := loopResults_inv _ _ _ _ _ _ hrep
  have hxm := List.mem_of_getElem? hxi
  obtain ⟨req, hreq1, hreq2⟩ := C32_exact_partial S (env.inWorld S W) f hiter hl hn p hp x hxm he
  obtain ⟨k, hk, rfl⟩ := List.mem_mapIdx.1 hq
  rw [Nat.zero_add] at hv hown ⊢
  have hpk : x.lockf.packages[k] ∈ x.lockf.packages := List.getElem_mem hk
  refine ⟨x, h1 ▸ hxm, rfl, hpk, ?_, ?_⟩
  · rw [← excused_inWorld env S W]
    constructor
    · exact hown.1 v
    · intro hex
      rcases List.mem_append.1 hv with h | h
      · exact absurd hex (hown.2 v h)
      · exact h
  · have hret : v ∈ returned k ((forConfigs p.2.1 (p.1.cells.getD x.config {}).databases).filterMap
        fun db => db.answer i x.lockf.packages) := by
      rw [transpose_eq] at hv
      dsimp only at hv
      rw [List.mem_append, List.mem_filter, List.mem_filter] at hv
      refine (uniqueVulns_spec _).1.mem ?_
      rcases hv with h | h <;> exact h.1
    obtain ⟨answer, hans, hva⟩ := List.mem_flatMap.1 hret
    obtain ⟨db, hdb, hdba⟩ := List.mem_filterMap.1 hans
    unfold forConfigs at hdb
    obtain ⟨db', hdb', hf⟩ := List.mem_flatMap.1 hdb
    obtain ⟨e, hem, hee⟩ := List.mem_filterMap.1 hf
    have heq : e.identifier = db'.identifier ∧ db' = db := by
      split at hee
      · rename_i hi; exact ⟨hi, by injection hee⟩
      · cases hee
    obtain ⟨hid, rfl⟩ := heq
    rw [h3 hl] at hdb'
    obtain ⟨d, hdm, hdl⟩ := List.mem_filterMap.1 hdb'
    have hdi := inWorld_keeps env S W d _ _ _ _ hdl
    rw [hreq1] at hem
    refine ⟨e, d, (hreq2 e).1 ((firsts_sublist _).mem hem), by rw [hid, hdi], ?_⟩
    by_cases ha : d.type = g!"api"
    · exact .inl ha
    · refine .inr fun hwf => ?_
      have hloc := worldLoad_local S W d f.offline f.batchSize _ db' hdl ha i x.lockf.packages
      rw [hloc] at hdba
      cases hdba
      rw [List.getD_eq_getElem?_getD] at hva
      cases hvs : (((HeapDB.load (advisoriesOf W.load d f.offline)
          (allPackageNames (env.inWorld S W) (readOf S (env.inWorld S W) f).files)).check S W.sem (W.history d i)).2.answer S W.sem
          x.lockf.packages)[k]? with
      | none => rw [hvs] at hva; cases hva
      | some vs =>
        rw [hvs] at hva
        obtain ⟨o, ho, e1, e2, e3, e4⟩ := answer_sound_steady S W.sem _ _ _ _ k _ (List.getElem?_eq_getElem hk) hwf vs hvs v hva
        refine ⟨o, ho, e1, e2, e3, e4, fun hwd => mem_published _ _ _ _ ?_ hwd ho⟩
        rcases worldLoad_type S W d f.offline f.batchSize _ db' hdl with h | h | h
        · exact .inl h
        · exact absurd h ha
        · exact .inr h

/-- The converse, for lockfiles with configs enabled: whatever is reported for a package comes from a database required for the
lockfile. If that database is local, the vulnerability is an advisory in it that is not withdrawn and affects the package. What
counts as vulnerability is not excused, and what is listed as ignored is. -/
theorem C66_reported_partial (S : Sorter) (env : Env) (W : World) (f : Flags) (hiter : ∀ l, (env.iter l).Perm l)
    (hl : f.listPackages = false) (hn : f.noConfig = false) (hs : Started f (run S (env.inWorld S W) f).events)
    (rep : Report) (hrep : .report rep ∈ shown (run S (env.inWorld S W) f).events) (q : PkgReport) (hq : q ∈ rep.packages) (v : OSV)
    (hv : v ∈ q.vulnerabilities ++ q.ignored) (hlaws : CmpLaws (W.sem q.pkg.compareAs)) :
    ∃ x ∈ (readOf S (env.inWorld S W) f).files, x.lockf = rep.lockfile ∧ q.pkg ∈ x.lockf.packages ∧
    (v ∈ q.ignored ↔ Excused env f rep.lockfile.filePath v.id) ∧
    ∃ c d : DBConfig,
      Required f ((readOf S (env.inWorld S W) f).cells.getD x.config {}).databases x.lockf.packages c ∧
      d.identifier = c.identifier ∧
      (d.type = g!"api" ∨
        ((∀ o ∈ advisoriesOf W.load d f.offline, WellFormedOSV (W.sem q.pkg.compareAs) o) →
          ∃ o ∈ advisoriesOf W.load d f.offline, v.id = o.id ∧ v.aliases = o.aliases ∧ o.withdrawn = none ∧
            Affects (W.sem q.pkg.compareAs) o q.pkg ∧
            ((d.workingDirectory = [] ∨ ∃ w, d.workingDirectory = w ++ g!"/") → Published W.load d f.offline o))) := by
  obtain ⟨x, h1, h2, h3, h4, c, d, h5, h6, h7⟩ := reported_steady S env W f hiter hl hn hs rep hrep q hq v hv
  refine ⟨x, h1, h2, h3, h4, c, d, h5, h6, h7.imp_right fun h hwf => ?_⟩
  obtain ⟨o, ho, e1, e2, e3, e4, e5⟩ := h fun o ho => steady_of_laws S hlaws (hwf o ho)
  exact ⟨o, ho, e1, e2, e3, (isAffected_iff_affects S W.sem o q.pkg hlaws (hwf o ho)).1 e4, e5⟩

/-! ### Samples -/

/-- An advisory for one version of a package. -/
def sampleAdvisory (eco name version : Str) : OSV :=
  { id := g!"X-1", affected := [{ package := ⟨name, eco⟩, versions := [version] }] }

/-- A world where the archive of every database has the same single advisory. -/
def sampleWorld (o : OSV) : World where
  load :=
    { fetch := fun _ _ _ => .ok [] []
      unzip := fun _ => some [⟨g!"X-1.json", some g!"x"⟩]
      decode := fun s => if s = g!"x" then some o else none
      parseURI := fun _ => none
      tree := fun _ => .gone }
  parsers := sampleParsers
  sem := numSem
  history _ _ := []
  api _ _ _ _ := (.error (), false)
  warns _ := false

theorem sampleWorld_published (o : OSV) (c : DBConfig) (off : Bool) (ht : c.type = g!"zip") (hw : c.workingDirectory = []) (o' : OSV) :
    Published (sampleWorld o).load c off o' ↔ o' = o := by
  constructor
  · intro h
    have := published_mem _ _ _ _ h
    unfold advisoriesOf at this
    rw [if_pos ht, hw] at this
    have : o' ∈ (some o).toList := this
    simpa using this
  · rintro rfl
    exact .zip [] [] _ ⟨g!"X-1.json", some g!"x"⟩ g!"x" ht rfl rfl (by simp) (.inl hw) ⟨g!"X-1", rfl⟩ rfl rfl

theorem sampleAdvisory_wf (eco name version : Str) (cmp : Str → Str → Int) : WellFormedOSV cmp (sampleAdvisory eco name version) := by
  intro a ha r hr
  rw [List.mem_singleton.1 ha] at hr
  cases hr

/-- A row of CSV naming an affected Debian package. -/
def sampleSuffixEnv : Env := { sampleEnv with csvRows := fun _ => ([[g!"Debian:11", [], g!"curl", g!"7"]], true) }
def sampleSuffixFlags : Flags := { sampleFlags [g!"Debian:11,,curl,7"] with parseAs := g!"csv-row" }
def sampleSuffixWorld : World := sampleWorld (sampleAdvisory g!"Debian:11" g!"curl" g!"7")

/-- The property fails for a package with an ecosystem that has a suffix: it is affected, but the exit code is 0. -/
theorem C66_counterexample : ¬ C66_full := by
  intro h
  have h0 : (run Sorter.insertion (sampleSuffixEnv.inWorld Sorter.insertion sampleSuffixWorld) sampleSuffixFlags).exit = 0 := by
    decide +kernel
  have hfiles : (readOf Sorter.insertion (sampleSuffixEnv.inWorld Sorter.insertion sampleSuffixWorld) sampleSuffixFlags).files =
      [⟨⟨g!"-", g!"csv-row", [⟨g!"curl", g!"7", [], g!"Debian:11", g!"Debian:11"⟩]⟩, 1, false⟩] := by decide +kernel
  have hp := sampleWorld_published (sampleAdvisory g!"Debian:11" g!"curl" g!"7") (ecosystemDBConfig g!"Debian:11") false rfl rfl
  have h1 := h Sorter.insertion sampleSuffixEnv sampleSuffixWorld sampleSuffixFlags (fun _ => .refl _) rfl rfl rfl h0 _
    (by rw [hfiles]; exact List.mem_singleton.2 rfl) ⟨g!"curl", g!"7", [], g!"Debian:11", g!"Debian:11"⟩
    (List.mem_singleton.2 rfl) numCmp_laws (ecosystemDBConfig g!"Debian:11")
    (.inr (.inr ⟨rfl, _, List.mem_singleton.2 rfl, by decide, rfl⟩))
    (fun o ho => by rw [(hp o).1 ho]; exact sampleAdvisory_wf _ _ _ _)
    (sampleAdvisory g!"Debian:11" g!"curl" g!"7") ((hp _).2 rfl) rfl
    ⟨_, List.mem_singleton.2 rfl, by decide, by decide, .inl (by decide)⟩
  obtain ⟨o', -, hex⟩ := h1
  rcases hex with hg | ⟨-, path, raw, hc, hi⟩
  · cases hg
  · cases hc with
    | explicit _ _ hg _ => exact hg rfl
    | yml _ _ _ ok =>
      have hm : sampleSuffixEnv.config (ymlPath (Path.dir g!"-")) = .missing := by decide +kernel
      rw [show sampleSuffixEnv.config (ymlPath (Path.dir g!"-")) = .ok raw from ok] at hm
      cases hm
    | yaml _ _ _ _ ok =>
      have hm : sampleSuffixEnv.config (yamlPath (Path.dir g!"-")) = .missing := by decide +kernel
      rw [show sampleSuffixEnv.config (yamlPath (Path.dir g!"-")) = .ok raw from ok] at hm
      cases hm

/-- A directory with a requirements.txt. -/
def sampleReqEnv : Env := { sampleEnv with path := fun p => if p = g!"requirements.txt" then .file else .cannotOpen }
def sampleReqWorld : World := sampleWorld (sampleAdvisory g!"PyPI" g!"Foo" g!"1.0")
def sampleReqFlags : Flags := { sampleFlags [g!"requirements.txt"] with globalIgnores := [g!"X-1"] }

/-- Without the ignore the exit code is 1, with it 0; and the hypotheses of `C66_default_partial` hold. -/
example : (run Sorter.insertion (sampleReqEnv.inWorld Sorter.insertion sampleReqWorld) (sampleFlags [g!"requirements.txt"])).exit = 1 ∧
    (run Sorter.insertion (sampleReqEnv.inWorld Sorter.insertion sampleReqWorld) sampleReqFlags).exit = 0 := by decide +kernel

example : Discovers sampleReqEnv [] sampleReqFlags.args [] g!"requirements.txt" ∧
    parseFile sampleReqWorld.parsers (parserOf [] g!"requirements.txt") g!"requirements.txt" =
      some ([⟨g!"foo", g!"1.0", [], g!"PyPI", g!"PyPI"⟩], false) ∧
    Affects numCmp (sampleAdvisory g!"PyPI" g!"Foo" g!"1.0") ⟨g!"foo", g!"1.0", [], g!"PyPI", g!"PyPI"⟩ := by
  refine ⟨?_, by decide +kernel, ?_⟩
  · exact .file g!"requirements.txt" [] g!"requirements.txt" (by decide) (.inl ⟨by decide, rfl, rfl⟩) (by decide)
  · exact ⟨_, List.mem_singleton.2 rfl, by decide, by decide +kernel, .inl (by decide)⟩

end Osv
