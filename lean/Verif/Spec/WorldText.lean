import Verif.Model.Load
import Verif.Spec.Advisory
import Verif.Spec.Ignores
import Verif.Spec.Load
import Verif.Spec.TomlFiles
import Verif.Spec.YamlFiles
import Verif.Spec.Pnpm
import Verif.Props.C48
import Verif.Spec.JsonText
import Verif.Spec.YamlDoc
import Verif.Spec.TomlDoc
import Verif.Spec.ModText
/-!
# Lockfiles and configs as texts

What is written in a file, in terms of its text alone.
-/
namespace Osv.Spec
open Str

/-- The text of a lockfile in TOML, YAML or the language of go.mod has an entry that says a package as described. `nine` tells whether
the version of a pnpm-lock.yaml is 9. -/
inductive TextEntry (print : Char → Bool) (nine : Str → Option Bool) (content : Str) : Str → (PackageDetails → Prop) → Prop
  | cargo {n : TNode} {items : List TNode} {x : TNode} : TomlDoc n content → TPlain n →
      TEntry n g!"package" (.arr items) → x ∈ items → TextEntry print nine content g!"Cargo.lock" (CargoSays x)
  | poetry {n : TNode} {items : List TNode} {x : TNode} : TomlDoc n content → TPlain n →
      TEntry n g!"package" (.arr items) → x ∈ items → TextEntry print nine content g!"poetry.lock" (PoetrySays x)
  | pdm {n : TNode} {items : List TNode} {x : TNode} : TomlDoc n content → TPlain n →
      TEntry n g!"package" (.arr items) → x ∈ items → TextEntry print nine content g!"pdm.lock" (PdmSays x)
  | uv {n : TNode} {items : List TNode} {x : TNode} : TomlDoc n content → TPlain n →
      TEntry n g!"package" (.arr items) → x ∈ items → TextEntry print nine content g!"uv.lock" (UvSays x)
  | pylock {n : TNode} {items : List TNode} {x : TNode} : TomlDoc n content → TPlain n →
      TEntry n g!"packages" (.arr items) → x ∈ items → TextEntry print nine content g!"pylock.toml" (PylockSays x)
  | pnpm {n v : YNode} {k : Str} {x : PnpmLockPackage} {isNine : Bool} : YmlDoc content (some n) →
      (∀ s, YText n [g!"lockfileVersion"] s → nine s = some isNine) →
      (∀ k v, YAt n [g!"packages", k] v → ∃ name version, PnpmRule isNine k name version) →
      YAt n [g!"packages", k] v → PnpmPackageSays v x →
      TextEntry print nine content g!"pnpm-lock.yaml" (PnpmEntryBy (PnpmRule isNine) (k, x))
  | pubspec {n : YNode} {p : PackageDetails} : YmlDoc content (some n) → PubspecSays n p →
      TextEntry print nine content g!"pubspec.lock" (· = p)
  | go {f : GoModFile} {m n : GoModule} {p : PackageDetails} : ModText.Reads print content f → GoModOk f → GoMod.Unchained f.replace →
      m ∈ f.require → GoSelected f.replace m n → GoReported n p → TextEntry print nine content g!"go.mod" (· = p)

/-- The text of the config that applies to the lockfile at `q`. -/
inductive ConfigTextFor (disk : Str → Option (Option Str)) (f : Flags) (q text : Str) : Prop
  | explicit (enabled : f.noConfig = false) (given : f.configPath ≠ []) (is : disk (Path.clean f.configPath) = some (some text))
  | yml (enabled : f.noConfig = false) (notGiven : f.configPath = []) (is : disk (ymlPath (Path.dir q)) = some (some text))
  | yaml (enabled : f.noConfig = false) (notGiven : f.configPath = []) (noYml : disk (ymlPath (Path.dir q)) = none)
      (is : disk (yamlPath (Path.dir q)) = some (some text))

/-- The text is a document with the identifier among its ignores. -/
def TextIgnores (text id : Str) : Prop := ∃ n items, YmlDoc text (some n) ∧ YAt n [g!"ignore"] (.seq items) ∧ YNode.scalar id false ∈ items

/-- Vulnerabilities with this ID are ignored for the lockfile at `q`, on the command line or in the text of its config. -/
def TextExcused (disk : Str → Option (Option Str)) (f : Flags) (q id : Str) : Prop :=
  id ∈ f.globalIgnores ∨ (f.noConfigIgnores = false ∧ ∃ text, ConfigTextFor disk f q text ∧ TextIgnores text id)

/-- An archive holds an advisory, in the text of one of its files. -/
def TextPublished (canon : Str → Option Str) (es : List ZipEntry) (o : OSV) : Prop :=
  ∃ e ∈ es, JsonName e.name ∧ ∃ text m, e.content = some text ∧ JsonDoc (.obj m) text ∧ PlainAdvisory m ∧ IsAdvisory canon o m

end Osv.Spec
