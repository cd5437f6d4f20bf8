import Verif.Model.Config
/-!
# Rewriting a config file, at the level of its text (`internal/configer/update.go`)

`gopkg.in/yaml.v3` is a parameter: an encoder and a decoder for the config structure.
-/
namespace Osv

/-- The YAML library restricted to `rawConfig`. -/
structure YamlCodec where
  encode : RawConfig → Str
  decode : Str → Option RawConfig
  /-- what was written is read back -/
  roundtrip : ∀ c, decode (encode c) = some c
  /-- an empty document leaves the structure as it is -/
  decode_nil : decode [] = some {}

/-- `internal/configer/update.go:11-31`: the contents the file has while `UpdateWithIgnores` runs. It is read and
decoded (line 11), then truncated (line 19, `O_TRUNC`), then the new text arrives in pieces of any size (line 27). -/
inductive ContentDuring (Y : YamlCodec) (text : Str) (ignores : List Str) : Str → Prop where
  | before : ContentDuring Y text ignores text
  | truncated (raw : RawConfig) (h : Y.decode text = some raw) : ContentDuring Y text ignores []
  | writing (raw : RawConfig) (h : Y.decode text = some raw) (n : Nat) :
      ContentDuring Y text ignores ((Y.encode { raw with ignore := ignores }).take n)

/-- `internal/configer/update.go:10-34`: the content after an undisturbed `UpdateWithIgnores`; `opens` says whether
the file can be opened for writing. -/
def contentAfter (Y : YamlCodec) (text : Str) (ignores : List Str) (opens : Bool) : Str :=
  match Y.decode text with
  | none => text
  | some raw => if opens then Y.encode { raw with ignore := ignores } else text

end Osv
