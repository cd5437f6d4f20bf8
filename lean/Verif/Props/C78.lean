import Verif.Model.Parsers
import Verif.Props.C41
import Verif.Props.C44
import Verif.Props.C46
import Verif.Props.C47
import Verif.Props.C48
import Verif.Props.C50
import Verif.Props.C51
import Verif.Props.C52
import Verif.Props.C53
import Verif.Props.C54
import Verif.Props.C57
import Verif.Props.C64
import Verif.Props.C65
import Verif.Props.C67
import Verif.Props.C74
import Verif.Props.C75
import Verif.Props.C76
import Verif.Props.C77
/-!
# C78 Every name in the table of parsers stands for its format

The properties of the single parsers are stated about one function each. Here they are stated about what the table of parsers
does with a file: under every name the text of the file is read as the format of that name, with the decoder of that format.
-/
namespace Osv
open Spec Str Spec.Markup

/-- The orders in which maps are gone through are orders. -/
structure FairOrders (P : ParserEnv) : Prop where
  bun : ∀ l, (P.iterBun l).Perm l
  go : ∀ l, (P.iterGo l).Perm l
  npmDeps : ∀ t n v, NpmDepIn (P.iterNpmDeps t) n v ↔ NpmDepIn t n v
  npm : ∀ l, (P.iterNpm l).Perm l
  str : ∀ l, (P.iterStr l).Perm l
  nuget : ∀ l, (P.iterNuGet l).Perm l
  pnpm : ∀ l, (P.iterPnpm l).Perm l
  pubspec : ∀ l, (P.iterPubspec l).Perm l
  renv : ∀ l, (P.iterRenv l).Perm l
  order : ∀ l, (P.order l).Perm l
  reqOrder : ∀ p r l, (P.reqOrder p r l).Perm l

variable {P : ParserEnv} {path content : Str}

/-- A bun.lock is JSON with comments, and its packages are the heads of the tuples. -/
theorem C78_bun (h : FairOrders P) (hc : P.file path = some content) {doc packages : JMembers} (hd : JsoncDoc (.obj doc) content)
    (hk : PlainKeys [g!"lockfileVersion", g!"packages"] doc) (hm : Member doc g!"packages" (.obj packages))
    (hu : DistinctKeys packages) (hv : ∀ v, Member doc g!"lockfileVersion" v → IsInt v)
    (ht : ∀ k v, Member packages k v → ∃ e l, v = .arr (.cons e l) ∧ ∀ lit, NumberIn lit v → P.isFloat lit = true) :
    ∃ pkgs items, parseFile P g!"bun.lock" path = some (pkgs, false) ∧ items.Perm packages.toList ∧
      Entries BunPackage items pkgs := by
  have e := C77_jsonc hd
  have r := C54_partial Jsonc.toJSON P.isFloat P.iterBun h.bun content packages ⟨doc, e, hk, hm, hu⟩
    ⟨fun doc' e' v hv' => by rw [e] at e'; cases e'; exact hv v hv', fun k v hkv => by
      obtain ⟨e, l, rfl, hok⟩ := ht k v hkv; exact .inr ⟨_, rfl, hok⟩⟩
    (fun k v hkv => by obtain ⟨e, l, rfl, -⟩ := ht k v hkv; exact ⟨nofun, nofun⟩)
  rw [show parseFile P g!"bun.lock" path = parseBunLock Jsonc.toJSON P.isFloat P.iterBun (P.file path) from rfl, hc]
  exact r

/-- A Cargo.lock is TOML. -/
theorem C78_cargo (hc : P.file path = some content) {n : TNode} (hn : P.toml content = some n) (hp : TPlain n) :
    (CargoShape n → ∃ ps items, parseFile P g!"Cargo.lock" path = some (ps, false) ∧ TItems n g!"package" items ∧
      Entries CargoSays items ps) ∧
    (¬ CargoShape n → parseFile P g!"Cargo.lock" path = some ([], true)) := by
  rw [show parseFile P g!"Cargo.lock" path = some (parseCargoLock (cargoDecode P.toml) (P.file path)) from rfl, hc]
  have ha := C76_cargo_accepted P.toml content n hn
  refine ⟨fun hs => ?_, fun hs => ?_⟩
  · have h2 := ha.2 hs
    obtain ⟨items, hi⟩ := C76_cargo_read P.toml content n hn hp _ (Prod.ext rfl h2)
    exact ⟨_, items, congrArg some (Prod.ext rfl h2), hi⟩
  · refine congrArg some ((C57_error (some content)).1 _ ?_)
    cases hd : cargoDecode P.toml content with
    | none => exact hd
    | some l => exact absurd (ha.1 (by obtain ⟨_, e, -⟩ := C57_cargo _ _ _ hd; rw [e])) hs

/-- A poetry.lock is TOML. -/
theorem C78_poetry (hc : P.file path = some content) {n : TNode} (hn : P.toml content = some n) (hp : TPlain n) :
    (PoetryShape n → ∃ ps items, parseFile P g!"poetry.lock" path = some (ps, false) ∧ TItems n g!"package" items ∧
      Entries PoetrySays items ps) ∧
    (¬ PoetryShape n → parseFile P g!"poetry.lock" path = some ([], true)) := by
  rw [show parseFile P g!"poetry.lock" path = some (parsePoetryLock (poetryDecode P.toml) (P.file path)) from rfl, hc]
  have ha := C76_poetry_accepted P.toml content n hn
  refine ⟨fun hs => ?_, fun hs => ?_⟩
  · have h2 := ha.2 hs
    obtain ⟨items, hi⟩ := C76_poetry_read P.toml content n hn hp _ (Prod.ext rfl h2)
    exact ⟨_, items, congrArg some (Prod.ext rfl h2), hi⟩
  · refine congrArg some ((C57_error (some content)).2.1 _ ?_)
    cases hd : poetryDecode P.toml content with
    | none => exact hd
    | some l => exact absurd (ha.1 (by obtain ⟨_, e, -⟩ := C57_poetry _ _ _ hd; rw [e])) hs

/-- A pdm.lock is TOML. -/
theorem C78_pdm (hc : P.file path = some content) {n : TNode} (hn : P.toml content = some n) (hp : TPlain n) :
    (PdmShape n → ∃ ps items, parseFile P g!"pdm.lock" path = some (ps, false) ∧ TItems n g!"package" items ∧
      Entries PdmSays items ps) ∧
    (¬ PdmShape n → parseFile P g!"pdm.lock" path = some ([], true)) := by
  rw [show parseFile P g!"pdm.lock" path = some (parsePdmLock (pdmDecode P.toml) (P.file path)) from rfl, hc]
  have ha := C76_pdm_accepted P.toml content n hn
  refine ⟨fun hs => ?_, fun hs => ?_⟩
  · have h2 := ha.2 hs
    obtain ⟨items, hi⟩ := C76_pdm_read P.toml content n hn hp _ (Prod.ext rfl h2)
    exact ⟨_, items, congrArg some (Prod.ext rfl h2), hi⟩
  · refine congrArg some ((C57_error (some content)).2.2.1 _ ?_)
    cases hd : pdmDecode P.toml content with
    | none => exact hd
    | some l => exact absurd (ha.1 (by obtain ⟨_, e, -⟩ := C57_pdm _ _ _ hd; rw [e])) hs

/-- A uv.lock is TOML. -/
theorem C78_uv (hc : P.file path = some content) {n : TNode} (hn : P.toml content = some n) (hp : TPlain n) :
    (UvShape (fun v => (P.uvOptional v).isSome) n → ∃ ps items, parseFile P g!"uv.lock" path = some (ps, false) ∧
      TItems n g!"package" items ∧ Entries UvSays items ps) ∧
    (¬ UvShape (fun v => (P.uvOptional v).isSome) n → parseFile P g!"uv.lock" path = some ([], true)) := by
  rw [show parseFile P g!"uv.lock" path = some (parseUvLock (uvDecode P.uvOptional P.toml) (P.file path)) from rfl, hc]
  have ha := C76_uv_accepted P.uvOptional P.toml content n hn
  refine ⟨fun hs => ?_, fun hs => ?_⟩
  · have h2 := ha.2 hs
    obtain ⟨items, hi⟩ := C76_uv_read P.uvOptional P.toml content n hn hp _ (Prod.ext rfl h2)
    exact ⟨_, items, congrArg some (Prod.ext rfl h2), hi⟩
  · refine congrArg some ((C57_error (some content)).2.2.2.1 _ ?_)
    cases hd : uvDecode P.uvOptional P.toml content with
    | none => exact hd
    | some l => exact absurd (ha.1 (by obtain ⟨_, e, -⟩ := C57_uv _ _ _ hd; rw [e])) hs

/-- A pylock.toml is TOML. -/
theorem C78_pylock (hc : P.file path = some content) {n : TNode} (hn : P.toml content = some n) (hp : TPlain n) :
    (PylockShape n → ∃ ps items, parseFile P g!"pylock.toml" path = some (ps, false) ∧ TItems n g!"packages" items ∧
      Entries PylockSays items ps) ∧
    (¬ PylockShape n → parseFile P g!"pylock.toml" path = some ([], true)) := by
  rw [show parseFile P g!"pylock.toml" path = some (parsePylock (pylockDecode P.toml) (P.file path)) from rfl, hc]
  have ha := C76_pylock_accepted P.toml content n hn
  refine ⟨fun hs => ?_, fun hs => ?_⟩
  · have h2 := ha.2 hs
    obtain ⟨items, hi⟩ := C76_pylock_read P.toml content n hn hp _ (Prod.ext rfl h2)
    exact ⟨_, items, congrArg some (Prod.ext rfl h2), hi⟩
  · refine congrArg some ((C57_error (some content)).2.2.2.2.1 _ ?_)
    cases hd : pylockDecode P.toml content with
    | none => exact hd
    | some l => exact absurd (ha.1 (by obtain ⟨_, e, -⟩ := C57_pylock _ _ _ hd; rw [e])) hs

/-- A text that is no TOML is an error under each of the five names. -/
theorem C78_no_toml (hc : P.file path = some content) (hn : P.toml content = none) :
    ∀ name ∈ [g!"Cargo.lock", g!"poetry.lock", g!"pdm.lock", g!"uv.lock", g!"pylock.toml"],
      parseFile P name path = some ([], true) := by
  intro name h
  simp only [List.mem_cons, List.not_mem_nil, or_false] at h
  obtain rfl | rfl | rfl | rfl | rfl := h
  · rw [show parseFile P g!"Cargo.lock" path = some (parseCargoLock (cargoDecode P.toml) (P.file path)) from rfl, hc]
    exact congrArg some ((C57_error (some content)).1 _ (by simp [cargoDecode, hn]))
  · rw [show parseFile P g!"poetry.lock" path = some (parsePoetryLock (poetryDecode P.toml) (P.file path)) from rfl, hc]
    exact congrArg some ((C57_error (some content)).2.1 _ (by simp [poetryDecode, hn]))
  · rw [show parseFile P g!"pdm.lock" path = some (parsePdmLock (pdmDecode P.toml) (P.file path)) from rfl, hc]
    exact congrArg some ((C57_error (some content)).2.2.1 _ (by simp [pdmDecode, hn]))
  · rw [show parseFile P g!"uv.lock" path = some (parseUvLock (uvDecode P.uvOptional P.toml) (P.file path)) from rfl, hc]
    exact congrArg some ((C57_error (some content)).2.2.2.1 _ (by simp [uvDecode, hn]))
  · rw [show parseFile P g!"pylock.toml" path = some (parsePylock (pylockDecode P.toml) (P.file path)) from rfl, hc]
    exact congrArg some ((C57_error (some content)).2.2.2.2.1 _ (by simp [pylockDecode, hn]))

/-- A composer.lock is JSON. -/
theorem C78_composer (hc : P.file path = some content) {packages dev : List JVal} (hf : ComposerFile content packages dev) :
    ∃ pkgs, parseFile P g!"composer.lock" path = some (pkgs, false) ∧ Entries ComposerEntry (packages ++ dev) pkgs := by
  rw [show parseFile P g!"composer.lock" path = parseComposerLock (P.file path) from rfl, hc]
  exact C57_composer content packages dev hf

/-- A renv.lock is JSON. -/
theorem C78_renv (h : FairOrders P) (hc : P.file path = some content) {packages : JMembers} (hf : RenvFile content packages) :
    ∃ pkgs items, parseFile P g!"renv.lock" path = some (pkgs, false) ∧ items.Perm packages.toList ∧ Entries RenvEntry items pkgs := by
  rw [show parseFile P g!"renv.lock" path = parseRenvLock P.iterRenv (P.file path) from rfl, hc]
  exact C57_renv P.iterRenv h.renv content packages hf

/-- A packages.lock.json is JSON. -/
theorem C78_nuget (h : FairOrders P) (hc : P.file path = some content) {frameworks : JMembers}
    (hf : NuGetFile content g!"1" frameworks) (hat : ∀ p, NuGetEntry frameworks p → '@' ∉ p.name) :
    ∃ pkgs, parseFile P g!"packages.lock.json" path = some (pkgs, false) ∧ pkgs.Nodup ∧ ∀ p, p ∈ pkgs ↔ NuGetEntry frameworks p := by
  rw [show parseFile P g!"packages.lock.json" path = parseNuGetLock P.iterStr P.iterNuGet P.order (P.file path) from rfl, hc]
  exact C64_partial h.str h.nuget h.order content frameworks hf hat

/-- A Pipfile.lock is JSON. -/
theorem C78_pipenv (h : FairOrders P) (hc : P.file path = some content) {default develop : JMembers}
    (hf : PipenvFile content default develop)
    (hv : ∀ name version, PipenvListed default develop name version → version = [] ∨ ∃ v, version = g!"==" ++ v)
    (hat : ∀ name version, PipenvListed default develop name version → '@' ∉ name) :
    ∃ pkgs, parseFile P g!"Pipfile.lock" path = some (pkgs, false) ∧ pkgs.Nodup ∧
      ∀ p, p ∈ pkgs ↔ PipenvEntry default p ∨ PipenvEntry develop p := by
  rw [show parseFile P g!"Pipfile.lock" path = parsePipenvLock P.iterStr P.order (P.file path) from rfl, hc]
  exact C65_partial h.str h.order content default develop hf hv hat

/-- A package-lock.json without `packages` is read by its `dependencies`. -/
theorem C78_npm_v1 (h : FairOrders P) (hc : P.file path = some content) {deps : JMembers} (hf : NpmV1File content deps)
    (hnames : ∀ name version p, NpmJsonDep deps name version → NpmEntry tryExtractCommit name version p → NpmName p.name)
    (hcommits : ∀ name version p name' version' p', NpmJsonDep deps name version → NpmEntry tryExtractCommit name version p →
      NpmJsonDep deps name' version' → NpmEntry tryExtractCommit name' version' p' → p.name = p'.name →
      p.commit ≠ [] → p'.commit = [] → version' ≠ p.commit)
    {pkgs : List PackageDetails} (hr : parseFile P g!"package-lock.json" path = some (pkgs, false)) (p : PackageDetails) :
    p ∈ pkgs ↔ ∃ name version, NpmJsonDep deps name version ∧ NpmEntry tryExtractCommit name version p := by
  rw [show parseFile P g!"package-lock.json" path = parseNpmLock P.iterNpmDeps P.iterNpm P.order (P.file path) from rfl, hc] at hr
  exact C46_partial P.iterNpmDeps P.iterNpm P.order h.npmDeps h.order content deps hf hnames hcommits pkgs hr p

/-- A package-lock.json with `packages` is read by them, whatever its `dependencies` are. -/
theorem C78_npm_v2 (h : FairOrders P) (hc : P.file path = some content) {packages : JMembers} (hf : NpmV2File content packages)
    (hpaths : ∀ path version resolved, NpmJsonPackage packages path [] version resolved → ∃ segments, NpmPath path segments)
    {pkgs : List PackageDetails} (hr : parseFile P g!"package-lock.json" path = some (pkgs, false)) (p : PackageDetails) (hp : p ∈ pkgs) :
    ∃ path name version resolved, NpmJsonPackage packages path name version resolved ∧
      NpmPackageEntry tryExtractCommit path name version resolved p := by
  rw [show parseFile P g!"package-lock.json" path = parseNpmLock P.iterNpmDeps P.iterNpm P.order (P.file path) from rfl, hc] at hr
  exact C47_sound P.iterNpmDeps P.iterNpm P.order h.npm h.order content packages hf hpaths pkgs hr p hp

/-- The same, exactly, if no two packages share a key. -/
theorem C78_npm_v2_exact (h : FairOrders P) (hc : P.file path = some content) {packages : JMembers} (hf : NpmV2File content packages)
    (hpaths : ∀ path version resolved, NpmJsonPackage packages path [] version resolved → ∃ segments, NpmPath path segments)
    (hnames : ∀ path name version resolved p, NpmJsonPackage packages path name version resolved →
      NpmPackageEntry tryExtractCommit path name version resolved p → NpmName p.name)
    (hcommits : ∀ path name version resolved p path' name' version' resolved' p',
      NpmJsonPackage packages path name version resolved → NpmPackageEntry tryExtractCommit path name version resolved p →
      NpmJsonPackage packages path' name' version' resolved' → NpmPackageEntry tryExtractCommit path' name' version' resolved' p' →
      p.name = p'.name → p.commit ≠ [] → (p'.commit = p.commit → p'.version = p.version) ∧ (p'.commit = [] → p'.version ≠ p.commit))
    {pkgs : List PackageDetails} (hr : parseFile P g!"package-lock.json" path = some (pkgs, false)) (p : PackageDetails) :
    p ∈ pkgs ↔ ∃ path name version resolved, NpmJsonPackage packages path name version resolved ∧
      NpmPackageEntry tryExtractCommit path name version resolved p := by
  rw [show parseFile P g!"package-lock.json" path = parseNpmLock P.iterNpmDeps P.iterNpm P.order (P.file path) from rfl, hc] at hr
  exact C47_partial P.iterNpmDeps P.iterNpm P.order h.npm h.order content packages hf hpaths hnames hcommits pkgs hr p

/-- A text that is no JSON is an error under each of the five names. -/
theorem C78_no_json (hc : P.file path = some content) (hn : ∀ v, ¬ JsonDoc v content) :
    ∀ name ∈ [g!"composer.lock", g!"renv.lock", g!"packages.lock.json", g!"Pipfile.lock", g!"package-lock.json"],
      parseFile P name path = some ([], true) := by
  intro name h
  have r := C77_rejected hn
  simp only [List.mem_cons, List.not_mem_nil, or_false] at h
  obtain rfl | rfl | rfl | rfl | rfl := h
  · rw [show parseFile P g!"composer.lock" path = parseComposerLock (P.file path) from rfl, hc]; exact r.1
  · rw [show parseFile P g!"renv.lock" path = parseRenvLock P.iterRenv (P.file path) from rfl, hc]; exact r.2.1 _
  · rw [show parseFile P g!"packages.lock.json" path = parseNuGetLock P.iterStr P.iterNuGet P.order (P.file path) from rfl, hc]
    exact r.2.2.2.1 _ _ _
  · rw [show parseFile P g!"Pipfile.lock" path = parsePipenvLock P.iterStr P.order (P.file path) from rfl, hc]
    exact r.2.2.2.2 _ _
  · rw [show parseFile P g!"package-lock.json" path = parseNpmLock P.iterNpmDeps P.iterNpm P.order (P.file path) from rfl, hc]
    exact r.2.2.1 _ _ _

/-- A pnpm-lock.yaml is YAML. -/
theorem C78_pnpm (h : FairOrders P) (hc : P.file path = some content) {n : YNode} (hy : P.yaml content = some (some n))
    (h0 : ¬ YNull n) (hs : PnpmShape n) (hv : ∃ s, YText n [g!"lockfileVersion"] s ∧ (P.pnpmNine s).isSome) :
    ∃ l, PnpmSays P.pnpmNine n l ∧ ((∀ x ∈ l.packages, ∃ n v, PnpmRead l.isNine PnpmSimplePath x.1 n v) →
      ∃ ds items, parseFile P g!"pnpm-lock.yaml" path = some (ds, false) ∧ items.Perm l.packages ∧
        Entries (PnpmEntry l.isNine PnpmSimplePath) items ds) := by
  rw [show parseFile P g!"pnpm-lock.yaml" path = parsePnpmLock (pnpmDecode P.pnpmNine P.yaml) P.iterPnpm (P.file path) from rfl, hc]
  have ha := (C75_pnpm_accepted P.pnpmNine P.yaml content n hy h0).2 ⟨hs, hv⟩
  obtain ⟨o, ho⟩ := Option.isSome_iff_exists.1 ha
  cases o with
  | none =>
    obtain hx | ⟨m, hx, hm⟩ := (C75_pnpm_nothing P.pnpmNine P.yaml content).1 ho
    · rw [hy] at hx; cases hx
    · rw [hy] at hx; cases hx; exact absurd hm h0
  | some l =>
    obtain ⟨m, hx, hm⟩ := C75_pnpm_read P.pnpmNine P.yaml content l ho
    rw [hy] at hx; cases hx
    refine ⟨l, hm, fun hp => ?_⟩
    obtain ⟨ds, e, he⟩ := C53_partial _ P.iterPnpm content l ho fun x hx => hp x ((h.pnpm _).mem_iff.1 hx)
    exact ⟨ds, P.iterPnpm l.packages, e, h.pnpm _, he⟩

/-- The same for all keys, with the rule of C53. -/
theorem C78_pnpm_rule (h : FairOrders P) (hc : P.file path = some content) {n : YNode} (hy : P.yaml content = some (some n))
    (h0 : ¬ YNull n) (hs : PnpmShape n) (hv : ∃ s, YText n [g!"lockfileVersion"] s ∧ (P.pnpmNine s).isSome) :
    ∃ l, PnpmSays P.pnpmNine n l ∧ ((∀ x ∈ l.packages, ∃ n v, PnpmRule l.isNine x.1 n v) →
      ∃ ds items, parseFile P g!"pnpm-lock.yaml" path = some (ds, false) ∧ items.Perm l.packages ∧
        Entries (PnpmEntryBy (PnpmRule l.isNine)) items ds) := by
  rw [show parseFile P g!"pnpm-lock.yaml" path = parsePnpmLock (pnpmDecode P.pnpmNine P.yaml) P.iterPnpm (P.file path) from rfl, hc]
  have ha := (C75_pnpm_accepted P.pnpmNine P.yaml content n hy h0).2 ⟨hs, hv⟩
  obtain ⟨o, ho⟩ := Option.isSome_iff_exists.1 ha
  cases o with
  | none =>
    obtain hx | ⟨m, hx, hm⟩ := (C75_pnpm_nothing P.pnpmNine P.yaml content).1 ho
    · rw [hy] at hx; cases hx
    · rw [hy] at hx; cases hx; exact absurd hm h0
  | some l =>
    obtain ⟨m, hx, hm⟩ := C75_pnpm_read P.pnpmNine P.yaml content l ho
    rw [hy] at hx; cases hx
    refine ⟨l, hm, fun hp => ?_⟩
    obtain ⟨ds, e, he⟩ := C53_reported _ P.iterPnpm content l ho fun x hx => hp x ((h.pnpm _).mem_iff.1 hx)
    exact ⟨ds, P.iterPnpm l.packages, e, h.pnpm _, he⟩

/-- Another shape is an error. -/
theorem C78_pnpm_bad (hc : P.file path = some content) {n : YNode} (hy : P.yaml content = some (some n)) (h0 : ¬ YNull n)
    (hs : ¬ (PnpmShape n ∧ ∃ s, YText n [g!"lockfileVersion"] s ∧ (P.pnpmNine s).isSome)) :
    parseFile P g!"pnpm-lock.yaml" path = some ([], true) := by
  rw [show parseFile P g!"pnpm-lock.yaml" path = parsePnpmLock (pnpmDecode P.pnpmNine P.yaml) P.iterPnpm (P.file path) from rfl, hc]
  refine C53_error _ _ _ ?_
  rw [← Option.not_isSome_iff_eq_none]
  exact fun h => hs ((C75_pnpm_accepted P.pnpmNine P.yaml content n hy h0).1 h)

/-- A pubspec.lock is YAML. -/
theorem C78_pubspec (h : FairOrders P) (hc : P.file path = some content) {n : YNode} (hy : P.yaml content = some (some n))
    (hs : PubspecShape n) : ∃ ps, parseFile P g!"pubspec.lock" path = some (ps, false) ∧ ∀ p, p ∈ ps ↔ PubspecSays n p := by
  rw [show parseFile P g!"pubspec.lock" path = parsePubspecLock (pubspecDecode P.yaml) P.iterPubspec (P.file path) from rfl, hc]
  obtain ⟨ps, e⟩ := (C75_pubspec_accepted P.yaml P.iterPubspec content n hy).2 hs
  exact ⟨ps, e, C75_pubspec_read P.yaml P.iterPubspec h.pubspec content n hy ps e⟩

/-- Another shape is not accepted. -/
theorem C78_pubspec_bad (hc : P.file path = some content) {n : YNode} (hy : P.yaml content = some (some n)) (hs : ¬ PubspecShape n) :
    ∀ ps, parseFile P g!"pubspec.lock" path ≠ some (ps, false) := by
  rw [show parseFile P g!"pubspec.lock" path = parsePubspecLock (pubspecDecode P.yaml) P.iterPubspec (P.file path) from rfl, hc]
  exact fun ps h => hs ((C75_pubspec_accepted P.yaml P.iterPubspec content n hy).1 ⟨ps, h⟩)

/-- A text that is no YAML is an error under both names. -/
theorem C78_no_yaml (hc : P.file path = some content) (hy : P.yaml content = none) :
    ∀ name ∈ [g!"pnpm-lock.yaml", g!"pubspec.lock"], parseFile P name path = some ([], true) := by
  intro name h
  simp only [List.mem_cons, List.not_mem_nil, or_false] at h
  obtain rfl | rfl := h
  · rw [show parseFile P g!"pnpm-lock.yaml" path = parsePnpmLock (pnpmDecode P.pnpmNine P.yaml) P.iterPnpm (P.file path) from rfl, hc]
    exact C53_error _ _ _ (by simp [pnpmDecode, hy])
  · rw [show parseFile P g!"pubspec.lock" path = parsePubspecLock (pubspecDecode P.yaml) P.iterPubspec (P.file path) from rfl, hc]
    exact (C57_error (some content)).2.2.2.2.2.1 _ _ (by simp [pubspecDecode, hy])

/-- A pom.xml is XML. -/
theorem C78_pom (h : FairOrders P) (hc : P.file path = some content) {kids : List XNode} (hd : Document g!"project" kids content)
    (hp : ∀ n v, writtenProperty kids n = some v → '\n' ∉ v)
    (hl : ∀ k, k ∈ elementsAt [g!"dependencies", g!"dependency"] kids ∨
        k ∈ elementsAt [g!"dependencyManagement", g!"dependencies", g!"dependency"] kids → '\n' ∉ (writtenDependency k).version ∧
      ((∀ a b, (writtenDependency k).version ≠ a ++ g!"${" ++ b) ∨
        ∃ name, name ≠ [] ∧ '}' ∉ name ∧ (writtenDependency k).version = g!"${" ++ name ++ g!"}")) :
    ∃ f pkgs, PomSays kids f ∧ parseFile P g!"pom.xml" path = some (pkgs, false) ∧ (pkgs.map (·.name)).Nodup ∧
      ∀ p, p ∈ pkgs ↔ ∃ d v, MavenEffective f d ∧ MavenVersion f.properties d.version v ∧ p = pkg g!"Maven" (mavenName d) v [] := by
  rw [show parseFile P g!"pom.xml" path = some (parseMavenLock pomDecode P.order (P.file path)) from rfl, hc]
  obtain ⟨f, pkgs, h1, h2, h3⟩ := C74_packages h.order hd hp hl
  exact ⟨f, pkgs, h1, congrArg some h2, h3⟩

/-- The same for all versions, with the rule of C49. -/
theorem C78_pom_reported (h : FairOrders P) (hc : P.file path = some content) {kids : List XNode} (hd : Document g!"project" kids content)
    (hp : ∀ n v, writtenProperty kids n = some v → '\n' ∉ v)
    (hl : ∀ k, k ∈ elementsAt [g!"dependencies", g!"dependency"] kids ∨
        k ∈ elementsAt [g!"dependencyManagement", g!"dependencies", g!"dependency"] kids → '\n' ∉ (writtenDependency k).version) :
    ∃ f pkgs, PomSays kids f ∧ parseFile P g!"pom.xml" path = some (pkgs, false) ∧ (pkgs.map (·.name)).Nodup ∧
      ∀ p, p ∈ pkgs ↔ ∃ d v, MavenEffective f d ∧ MavenReported f.properties d.version v ∧ p = pkg g!"Maven" (mavenName d) v [] := by
  rw [show parseFile P g!"pom.xml" path = some (parseMavenLock pomDecode P.order (P.file path)) from rfl, hc]
  obtain ⟨f, pkgs, h1, h2, h3⟩ := C74_reported h.order hd hp hl
  exact ⟨f, pkgs, h1, congrArg some h2, h3⟩

/-- A go.mod gives the selected modules. -/
theorem C78_go (h : FairOrders P) (hc : P.file path = some content) {f : GoModFile} (hd : P.gomod content = some f) (hok : GoModOk f)
    (hu : GoMod.Unchained f.replace) :
    ∃ pkgs, parseFile P g!"go.mod" path = some (pkgs, false) ∧ pkgs.Nodup ∧
      ∀ p, p ∈ pkgs ↔ ∃ m ∈ f.require, ∃ n, GoSelected f.replace m n ∧ GoReported n p := by
  rw [show parseFile P g!"go.mod" path = some (parseGoLock P.gomod P.iterGo P.order (P.file path)) from rfl, hc]
  obtain ⟨pkgs, h1, h2⟩ := C48_partial h.go h.order content f hd hok hu
  exact ⟨pkgs, congrArg some h1, h2⟩

/-- A Gemfile.lock is read line by line. -/
theorem C78_gemfile (hc : P.file path = some content) : ∃ ls ps, NonEmptyLines content ls ∧
    parseFile P g!"Gemfile.lock" path = some (ps, false) ∧ Entries GemEntry (withPrefixes [] ls) ps := by
  rw [show parseFile P g!"Gemfile.lock" path = some (parseGemfileLock (P.file path)) from rfl, hc]
  obtain ⟨ls, h1, h2, h3⟩ := C50_entries content
  exact ⟨ls, _, h1, congrArg some (Prod.ext rfl h2), h3⟩

/-- A yarn.lock is read block by block. -/
theorem C78_yarn (hc : P.file path = some content) (hs : (Scanner.scan content).2 = false) :
    ∃ gs ps, Blocks (Scanner.scan content).1 gs ∧ parseFile P g!"yarn.lock" path = some (ps, false) ∧ Entries YarnEntry gs ps := by
  rw [show parseFile P g!"yarn.lock" path = some (parseYarnLock (P.file path)) from rfl, hc]
  obtain ⟨h1, gs, h2, h3⟩ := C44_packages content hs
  exact ⟨gs, _, h2, congrArg some (Prod.ext rfl h1), h3⟩

/-- A mix.lock is read line by line. -/
theorem C78_mix (hc : P.file path = some content) (hs : (Scanner.scan content).2 = false) :
    ∃ ps, parseFile P g!"mix.lock" path = some (ps, false) ∧ Entries MixEntry (Scanner.scan content).1 ps := by
  rw [show parseFile P g!"mix.lock" path = some (parseMixLock (P.file path)) from rfl, hc]
  obtain ⟨h1, h2⟩ := C51_entries content hs
  exact ⟨_, congrArg some (Prod.ext rfl h1), h2⟩

/-- Both lockfiles of Gradle are read line by line. -/
theorem C78_gradle (hc : P.file path = some content) (hs : (Scanner.scan content).2 = false) :
    ∀ name ∈ [g!"gradle.lockfile", g!"buildscript-gradle.lockfile"],
      ∃ ps, parseFile P name path = some (ps, false) ∧ Entries GradleEntry (Scanner.scan content).1 ps := by
  have h : ∃ ps, some (parseGradleLock (P.file path)) = some (ps, false) ∧ Entries GradleEntry (Scanner.scan content).1 ps := by
    rw [hc]
    obtain ⟨h1, h2⟩ := C52_entries content hs
    exact ⟨_, congrArg some (Prod.ext rfl h1), h2⟩
  intro name hn
  simp only [List.mem_cons, List.not_mem_nil, or_false] at hn
  obtain rfl | rfl := hn
  · exact h
  · exact h

/-- A requirements.txt is read together with what it includes. -/
theorem C78_requirements (h : FairOrders P) {dom : List Str} (hdom : ∀ p, P.file p ≠ none → p ∈ dom) (hn : dom.length + 2 ≤ P.reqDepth) :
    ((∃ p, IncludeReach P.file path p ∧ ¬ ReadableText P.file p) → parseFile P g!"requirements.txt" path = some ([], true)) ∧
    ((∀ p, IncludeReach P.file path p → ReadableText P.file p) →
      (∀ p d, IncludeReach P.file path p → Requires P.file p d → '@' ∉ d.name) →
      ∃ ds, parseFile P g!"requirements.txt" path = some (ds, false) ∧ ds.Nodup ∧
        ∀ d, d ∈ ds ↔ ∃ p, IncludeReach P.file path p ∧ Requires P.file p d) := by
  rw [show parseFile P g!"requirements.txt" path = (parseRequirementsTxt P.file P.reqOrder P.reqDepth path).map reqParsed from rfl]
  have hf := C41_failure h.reqOrder dom hdom P.reqDepth hn path
  refine ⟨fun he => ?_, fun hr hat => ?_⟩
  · rw [hf.2 he]; rfl
  · obtain ⟨res, hres⟩ := C40_terminates P.file dom hdom P.reqOrder path
    have e := hres P.reqDepth hn
    cases res with
    | none =>
      obtain ⟨p, h1, h2⟩ := hf.1 e
      exact absurd (hr p h1) h2
    | some ds =>
      obtain ⟨h1, h2⟩ := C41_exact_partial h.reqOrder P.reqDepth path ds e hat
      exact ⟨ds, by rw [e]; rfl, h1, h2⟩

theorem Formats.both {α : Type} {c : Prop} [Decidable c] {a b x : α} (ha : a = x) (hb : b = x) : (if c then a else b) = x := by
  split <;> assumption

/-- A file that cannot be read is an error under every name. -/
theorem C78_unreadable (h : FairOrders P) {dom : List Str} (hdom : ∀ p, P.file p ≠ none → p ∈ dom) (hn : dom.length + 2 ≤ P.reqDepth)
    (hc : P.file path = none) (name : Str) : parseFile P name path = some ([], true) := by
  by_cases hq : name = g!"requirements.txt"
  · subst hq
    exact (C78_requirements h hdom hn).1 ⟨path, .root, fun ⟨c, e, _⟩ => by rw [hc] at e; cases e⟩
  · simp only [parseFile, hc, if_neg hq]
    repeat refine Formats.both rfl ?_
    rfl

/-! ### Non-vacuity

The hypotheses about single formats are met by the examples of their own properties. -/

/-- A directory with a bun.lock, a uv.lock, a pubspec.lock, a go.mod and a mix.lock. -/
def sampleTable : ParserEnv := { sampleParsers with
  file := fun p => if p = g!"bun.lock" then some sampleJsonc else if p = g!"mix.lock" then
    some g!"  \"plug\": {:hex, :plug, \"1.11.1\", \"f2992bac\", [:mix], []},\n"
    else if p ∈ [g!"uv.lock", g!"pubspec.lock", g!"go.mod"] then some [] else none
  toml := fun _ => some C76_sample_doc
  uvOptional := fun _ => some ()
  yaml := fun _ => some (some C75_sample_doc)
  gomod := fun _ => some C48_sample
  reqDepth := 7 }

example : FairOrders sampleTable :=
  ⟨fun _ => .refl _, fun _ => .refl _, fun _ _ _ => .rfl, fun _ => .refl _, fun _ => .refl _, fun _ => .refl _, fun _ => .refl _,
    fun _ => .refl _, fun _ => .refl _, fun _ => .refl _, fun _ _ _ => .refl _⟩

example : ∀ p, sampleTable.file p ≠ none → p ∈ [g!"bun.lock", g!"mix.lock", g!"uv.lock", g!"pubspec.lock", g!"go.mod"] := by
  intro p h
  simp only [sampleTable] at h
  split at h
  · simp [*]
  · split at h
    · simp [*]
    · split at h
      · simp_all
      · exact absurd rfl h

example : parseFile sampleTable g!"bun.lock" g!"bun.lock" = some ([⟨g!"a", g!"1", [], g!"npm", g!"npm"⟩], false) ∧
    parseFile sampleTable g!"uv.lock" g!"uv.lock" = some ([⟨g!"a", g!"1", g!"abc", g!"PyPI", g!"PyPI"⟩], false) ∧
    parseFile sampleTable g!"pubspec.lock" g!"pubspec.lock" =
      some ([⟨g!"a", g!"1", g!"abc", g!"Pub", g!"Pub"⟩, ⟨g!"b", [], [], g!"Pub", g!"Pub"⟩], false) ∧
    parseFile sampleTable g!"mix.lock" g!"mix.lock" = some ([⟨g!"plug", g!"1.11.1", g!"f2992bac", g!"Hex", g!"Hex"⟩], false) ∧
    parseFile sampleTable g!"yarn.lock" g!"yarn.lock" = some ([], true) := by
  refine ⟨?_, ?_, ?_, ?_, ?_⟩ <;> decide +kernel

end Osv
