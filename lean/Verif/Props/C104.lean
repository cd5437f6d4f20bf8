import Verif.Spec.WorldText
import Verif.Go.Rfc3339
import Verif.Props.C70
import Verif.Props.C89
import Verif.Props.C77
import Verif.Props.C95
import Verif.Props.C96
import Verif.Props.C98
import Verif.Props.C102
/-!
# C104: from the texts of files to the exit code

C89 with the readers of texts in place: a lockfile in TOML, YAML or go.mod, the config next to it, and the advisories in the archive are
texts, and so are the versions, which are compared by precedence.
-/
namespace Osv
open Str Spec

/-- The readers of the model are in use: they read the texts of the grammars, and do anything with others. -/
structure ReadsTexts (env : Env) (W : World) (canon : Str → Option Str) (print : Char → Bool) (disk : Str → Option (Option Str)) : Prop where
  toml : ∀ n text, TomlDoc n text → W.parsers.toml text = some n
  yaml : ∀ text r, YmlDoc text r → W.parsers.yaml text = some r
  gomod : ∀ text f, ModText.Reads print text f → W.parsers.gomod text = some f
  advisory : W.load.decode = unmarshalOSV canon
  config : env.config = configFiles W.parsers.yaml disk
  compare : ∀ e ∈ Semantic.semverEcosystems, W.sem e = Semantic.semver

/-- An environment and a world with the readers of the model, whatever is behind them. -/
def textEnv (env : Env) (other : YamlReader) (disk : Str → Option (Option Str)) : Env :=
  { env with config := configFiles (yamlWith other) disk }

def textWorld (W : World) (canon : Str → Option Str) (print : Char → Bool) (other : YamlReader) : World :=
  { W with
    parsers := { W.parsers with toml := TomlText.read, yaml := yamlWith other, gomod := ModFile.decode print }
    load := { W.load with decode := unmarshalOSV canon }
    sem := fun e => if e ∈ Semantic.semverEcosystems then Semantic.semver else W.sem e }

theorem C104_readers (env : Env) (W : World) (canon : Str → Option Str) (print : Char → Bool) (other : YamlReader)
    (disk : Str → Option (Option Str)) : ReadsTexts (textEnv env other disk) (textWorld W canon print other) canon print disk where
  toml n text h := C98_read n text h
  yaml text r h := C101_library other text r h
  gomod text f h := (C95_text print text f).2 h
  advisory := rfl
  config := rfl
  compare e he := if_pos he

variable {env : Env} {W : World} {canon : Str → Option Str} {print : Char → Bool} {disk : Str → Option (Option Str)}

/-- An entry in the text of a lockfile is an entry of the lockfile. -/
theorem C104_declares (h : ReadsTexts env W canon print disk) {q content name : Str} {entry : PackageDetails → Prop}
    (hf : W.parsers.file q = some content) (he : TextEntry print W.parsers.pnpmNine content name entry) :
    Declares W.parsers q name entry := by
  cases he with
  | cargo hd hp hk hx => exact .cargo hf (h.toml _ _ hd) hp hk hx
  | poetry hd hp hk hx => exact .poetry hf (h.toml _ _ hd) hp hk hx
  | pdm hd hp hk hx => exact .pdm hf (h.toml _ _ hd) hp hk hx
  | uv hd hp hk hx => exact .uv hf (h.toml _ _ hd) hp hk hx
  | pylock hd hp hk hx => exact .pylock hf (h.toml _ _ hd) hp hk hx
  | pnpm hd hv hk hx hs => exact .pnpm hf (h.yaml _ _ hd) (C101_not_null _ _ hd) hv hk hx hs
  | pubspec hd hs => exact .pubspec hf (h.yaml _ _ hd) hs
  | go hd hok hu hm hs hg => exact .go hf (h.gomod _ _ hd) hok hu hm hs hg

/-- An ignore that counts is written in the text of the config. -/
theorem C104_excused (h : ReadsTexts env W canon print disk) {f : Flags} {q id : Str}
    (hg : ∀ text, ConfigTextFor disk f q text → ∃ r, YmlDoc text r) (he : Excused env f q id) : TextExcused disk f q id := by
  rcases he with he | ⟨hn, path, raw, hc, hid⟩
  · exact .inl he
  · refine .inr ⟨hn, ?_⟩
    have key : ∀ p, env.config p = .ok raw → ∃ text, disk p = some (some text) ∧ configDecode W.parsers.yaml text = some raw := by
      intro p hp
      rw [h.config] at hp
      unfold configFiles at hp
      split at hp
      · cases hp
      · cases hp
      · rename_i c hd
        split at hp
        · cases hp
        · rename_i r hr
          cases hp
          exact ⟨c, hd, hr⟩
    have main : ∃ text, ConfigTextFor disk f q text ∧ configDecode W.parsers.yaml text = some raw := by
      cases hc with
      | explicit _ h1 h2 h3 =>
        obtain ⟨text, ht, hr⟩ := key _ h3
        exact ⟨text, .explicit h1 h2 ht, hr⟩
      | yml _ h1 h2 h3 =>
        obtain ⟨text, ht, hr⟩ := key _ h3
        exact ⟨text, .yml h1 h2 ht, hr⟩
      | yaml _ h1 h2 h3 h4 =>
        obtain ⟨text, ht, hr⟩ := key _ h4
        refine ⟨text, .yaml h1 h2 ?_ ht, hr⟩
        rw [h.config] at h3
        unfold configFiles at h3
        split at h3
        · assumption
        · cases h3
        · split at h3 <;> cases h3
    obtain ⟨text, ht, hr⟩ := main
    refine ⟨text, ht, ?_⟩
    obtain ⟨r, hd⟩ := hg text ht
    cases r with
    | none =>
      unfold configDecode at hr
      rw [h.yaml _ _ hd] at hr
      cases hr
      cases hid
    | some n =>
      have hy := h.yaml _ _ hd
      have hshape := (C75_config_accepted _ _ n hy).1 (by rw [hr]; rfl)
      obtain ⟨⟨l, hl, hel⟩, -⟩ := C75_config_read _ _ n hy raw hr
      have each : ∀ {l : List YNode} {ss : List Str}, Each (fun v s => YText v [] s) l ss → id ∈ ss → ∃ v ∈ l, YText v [] id := by
        intro l ss he
        induction he with
        | nil => intro hm; cases hm
        | cons hv _ ih =>
          intro hm
          rcases List.mem_cons.1 hm with rfl | hm
          · exact ⟨_, List.mem_cons_self, hv⟩
          · obtain ⟨v, h1, h2⟩ := ih hm
            exact ⟨v, List.mem_cons_of_mem _ h1, h2⟩
      obtain ⟨v, hv, hvt⟩ := each hel hid
      rcases hl with ⟨all, hat, rfl⟩ | ⟨-, rfl⟩
      · refine ⟨n, all, hd, hat, ?_⟩
        obtain ⟨hva, hvn⟩ := List.mem_filter.1 hv
        obtain ⟨items, h1⟩ : YIsText v := by
          cases hat with
          | step hent hrest =>
            cases hrest
            rcases hshape with ⟨t, rfl⟩ | ⟨es, -, -, hall⟩
            · obtain ⟨_, e, -⟩ := hent; cases e
            · rcases hall _ List.mem_cons_self _ hent with ⟨t, e⟩ | ⟨l', e, hl'⟩
              · cases e
              · cases e
                exact hl' v hva fun ⟨t, e⟩ => by rw [e] at hvn; cases hvn
        obtain ⟨b, rfl⟩ := h1
        cases b with
        | true => cases hvn
        | false =>
          rcases hvt with hvt | ⟨hvt, -⟩
          · cases hvt
            exact hva
          · exact absurd (.here _) (hvt items)
      · cases hv

/-- The archive of an ecosystem, as texts. -/
structure Archive (W : World) (f : Flags) (ecosystem : Ecosystem) (es : List ZipEntry) : Prop where
  fetched : ∃ body t, W.load.fetch (ecosystemDBConfig ecosystem).url [] f.offline = .ok body t ∧ W.load.unzip body = some es

theorem published_of_text (h : ReadsTexts env W canon print disk) {f : Flags} {ecosystem : Ecosystem} {es : List ZipEntry} {o : OSV}
    (ha : Archive W f ecosystem es) (ho : TextPublished canon es o) : Published W.load (ecosystemDBConfig ecosystem) f.offline o := by
  obtain ⟨body, t, h1, h2⟩ := ha.fetched
  obtain ⟨e, he, hj, text, m, hc, hd, hp, hi⟩ := ho
  exact C70_zip canon W.load h.advisory _ _ body t es e text rfl h1 h2 he (.inl rfl) hj hc m ((C77_json _ _).2 hd) hp o hi

/-- For lockfiles of every format: if the exit code is 0, then for every entry of a lockfile every advisory in the texts of the archive
that affects the package is withdrawn, or it or another one for the same vulnerability is ignored. -/
theorem C104_every (S : Sorter) (h : ReadsTexts env W canon print disk) (f : Flags) (hiter : ∀ l, (env.iter l).Perm l)
    (hP : FairOrders W.parsers) (hv : f.printVersion = false) (hle : f.listEcosystems = false) (hl : f.listPackages = false)
    (hud : f.useDatabases = true) (hc : f.noConfig = false ∨ f.noConfigDatabases = false) (hg : f.parseAs ≠ csvRowName)
    (h0 : (run S (env.inWorld S W) f).exit = 0) (want q : Str) (hd : Discovers env f.parseAs f.args want q)
    (n1 : want ≠ csvRowName) (n2 : want ≠ csvFileName)
    {entry : PackageDetails → Prop} (he : Declares W.parsers q (parserOf want q) entry) (p : PackageDetails)
    (hp : entry p) (hcfg : ∀ text, ConfigTextFor disk f q text → ∃ r, YmlDoc text r) :
    ∃ pkg es, entry pkg ∧ Archive W f pkg.ecosystem es ∧ (pkg.compareAs ∈ Semantic.semverEcosystems →
      (∀ o, Published W.load (ecosystemDBConfig pkg.ecosystem) f.offline o → WellFormedOSV Semantic.semver o) →
      ∀ o, TextPublished canon es o → o.withdrawn = none → Affects Semantic.semver o pkg →
        ∃ o', Linked o' o ∧ TextExcused disk f q o'.id) := by
  obtain ⟨pkg, hent, ⟨body, t, es, h1, h2⟩, h3⟩ := C89_clean S env W f hiter hP hv hle hl hud hc hg h0 want q hd n1 n2
    he p hp
  have ha : Archive W f pkg.ecosystem es := ⟨body, t, h1, h2⟩
  refine ⟨pkg, es, hent, ha, fun hs hwf o ho hw haff => ?_⟩
  have e := h.compare _ hs
  rw [e] at h3
  obtain ⟨o', hl', hx⟩ := h3 C96_semver_laws hwf o (published_of_text h ha ho) hw haff
  exact ⟨o', hl', C104_excused h hcfg hx⟩

/-- If the exit code is 0, then for every package written in the text of a lockfile every advisory in the texts of the archive that
affects it is withdrawn, or it or another one for the same vulnerability is ignored on the command line or in the text of the config. -/
theorem C104_clean (S : Sorter) (h : ReadsTexts env W canon print disk) (f : Flags) (hiter : ∀ l, (env.iter l).Perm l)
    (hP : FairOrders W.parsers) (hv : f.printVersion = false) (hle : f.listEcosystems = false) (hl : f.listPackages = false)
    (hud : f.useDatabases = true) (hc : f.noConfig = false ∨ f.noConfigDatabases = false) (hg : f.parseAs ≠ csvRowName)
    (h0 : (run S (env.inWorld S W) f).exit = 0) (want q : Str) (hd : Discovers env f.parseAs f.args want q)
    (n1 : want ≠ csvRowName) (n2 : want ≠ csvFileName) (content : Str) (hf : W.parsers.file q = some content)
    {entry : PackageDetails → Prop} (he : TextEntry print W.parsers.pnpmNine content (parserOf want q) entry) (p : PackageDetails)
    (hp : entry p) (hcfg : ∀ text, ConfigTextFor disk f q text → ∃ r, YmlDoc text r) :
    ∃ pkg es, entry pkg ∧ Archive W f pkg.ecosystem es ∧ (pkg.compareAs ∈ Semantic.semverEcosystems →
      (∀ o, Published W.load (ecosystemDBConfig pkg.ecosystem) f.offline o → WellFormedOSV Semantic.semver o) →
      ∀ o, TextPublished canon es o → o.withdrawn = none → Affects Semantic.semver o pkg →
        ∃ o', Linked o' o ∧ TextExcused disk f q o'.id) :=
  C104_every S h f hiter hP hv hle hl hud hc hg h0 want q hd n1 n2 (C104_declares h hf he) p hp hcfg

/-- Turned around. -/
theorem C104_reported (S : Sorter) (h : ReadsTexts env W canon print disk) (f : Flags) (hiter : ∀ l, (env.iter l).Perm l)
    (hP : FairOrders W.parsers) (hv : f.printVersion = false) (hle : f.listEcosystems = false) (hl : f.listPackages = false)
    (hud : f.useDatabases = true) (hc : f.noConfig = false ∨ f.noConfigDatabases = false) (hg : f.parseAs ≠ csvRowName)
    (want q : Str) (hd : Discovers env f.parseAs f.args want q)
    (n1 : want ≠ csvRowName) (n2 : want ≠ csvFileName) (content : Str) (hf : W.parsers.file q = some content)
    {entry : PackageDetails → Prop} (he : TextEntry print W.parsers.pnpmNine content (parserOf want q) entry) (p : PackageDetails)
    (hp : ∀ p', entry p' ↔ p' = p) (hcfg : ∀ text, ConfigTextFor disk f q text → ∃ r, YmlDoc text r)
    (hs : p.compareAs ∈ Semantic.semverEcosystems) (es : List ZipEntry) (ha : Archive W f p.ecosystem es)
    (hwf : ∀ o, Published W.load (ecosystemDBConfig p.ecosystem) f.offline o → WellFormedOSV Semantic.semver o)
    (o : OSV) (ho : TextPublished canon es o) (hw : o.withdrawn = none) (haff : Affects Semantic.semver o p)
    (hno : ∀ o', Linked o' o → ¬ TextExcused disk f q o'.id) : (run S (env.inWorld S W) f).exit ≠ 0 := by
  intro h0
  obtain ⟨pkg, es', h1, ha', h2⟩ := C104_clean S h f hiter hP hv hle hl hud hc hg h0 want q hd n1 n2 content hf he p ((hp p).2 rfl) hcfg
  obtain rfl := (hp pkg).1 h1
  obtain ⟨b, t, e1, e2⟩ := ha.fetched
  obtain ⟨b', t', e1', e2'⟩ := ha'.fetched
  rw [e1] at e1'
  cases e1'
  rw [e2] at e2'
  cases e2'
  obtain ⟨o', h3, h4⟩ := h2 hs hwf o ho hw haff
  exact hno o' h3 h4

/-! ### A run on texts -/

def C104_env (config : Str) : Env := textEnv
  { sampleEnv with path := fun p => if p = g!"w" then .dir [(g!"Cargo.lock", false)] else .cannotOpen } (fun _ => none)
  (fun p => if p = g!"w/.osv-detector.yml" then some (some config) else none)

def C104_lock : Str := g!"version = 3\n[[package]]\nname = \"time\" # old\nversion = '0.1.42'\n"

def C104_advisory : Str := g!"{\"id\":\"RUSTSEC-1\",\"modified\":\"2021-10-19T22:14:35Z\",\"published\":\"2020-11-18T12:00:00.000Z\",\"affected\":[{\"package\":{\"name\":\"time\",\"ecosystem\":\"crates.io\"},\"ranges\":[{\"type\":\"SEMVER\",\"events\":[{\"introduced\":\"0\"},{\"fixed\":\"0.2.23\"}]}]}]}"

def C104_world : World := textWorld
  { sampleWorld (sampleAdvisory [] [] []) with
    parsers := { sampleParsers with file := fun p => if p = g!"w/Cargo.lock" then some C104_lock else none }
    load := { (sampleWorld (sampleAdvisory [] [] [])).load with unzip := fun _ => some [⟨g!"RUSTSEC-1.json", some C104_advisory⟩] } }
  (canonWith fun _ => none) (fun _ => true) (fun _ => none)

/-- With an ignore of something else the exit code is 1, with an ignore of the advisory it is 0. -/
example :
    (run Sorter.insertion ((C104_env g!"ignore:\n  - OTHER-1\n").inWorld Sorter.insertion C104_world) (sampleFlags [g!"w"])).exit = 1 ∧
    (run Sorter.insertion ((C104_env g!"ignore: ['RUSTSEC-1'] # why\n").inWorld Sorter.insertion C104_world) (sampleFlags [g!"w"])).exit = 0 := by
  decide +kernel

end Osv
