import Verif.Model.Main
import Verif.Spec.Discovery
/-! # Which config file applies to a lockfile -/
namespace Osv.Spec

/-- The config file at `path` with content `raw` applies to the lockfile at `q`: the one given on the command line, else the one
next to the lockfile. -/
inductive ConfigFor (env : Env) (f : Flags) (q : Str) : Str → RawConfig → Prop where
  | explicit (raw : RawConfig) (enabled : f.noConfig = false) (given : f.configPath ≠ [])
      (ok : env.config (Path.clean f.configPath) = .ok raw) : ConfigFor env f q (Path.clean f.configPath) raw
  | yml (raw : RawConfig) (enabled : f.noConfig = false) (notGiven : f.configPath = [])
      (ok : env.config (ymlPath (Path.dir q)) = .ok raw) : ConfigFor env f q (ymlPath (Path.dir q)) raw
  | yaml (raw : RawConfig) (enabled : f.noConfig = false) (notGiven : f.configPath = [])
      (noYml : env.config (ymlPath (Path.dir q)) = .missing)
      (ok : env.config (yamlPath (Path.dir q)) = .ok raw) : ConfigFor env f q (yamlPath (Path.dir q)) raw

/-- Vulnerabilities with this ID are ignored for the lockfile at `q`. -/
def Excused (env : Env) (f : Flags) (q id : Str) : Prop :=
  id ∈ f.globalIgnores ∨ (f.noConfigIgnores = false ∧ ∃ path raw, ConfigFor env f q path raw ∧ id ∈ raw.ignore)

end Osv.Spec
