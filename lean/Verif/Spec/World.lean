import Verif.Model.Load
import Verif.Spec.Load
import Verif.Spec.Vulns
/-! # Which advisories a database has -/
namespace Osv.Spec

/-- The advisory is in the local database of the config: in a `.json` file inside the working directory of the archive or of the
directory. -/
inductive Published (L : LoadEnv) (c : DBConfig) (offline : Bool) (o : OSV) : Prop where
  | zip (body : Bytes) (t : Str) (es : List ZipEntry) (e : ZipEntry) (text : Str) (type : c.type = g!"zip")
      (fetched : L.fetch c.url c.workingDirectory offline = .ok body t) (unzipped : L.unzip body = some es) (mem : e ∈ es)
      (inside : Inside c.workingDirectory e.name) (json : JsonName e.name) (content : e.content = some text)
      (decoded : L.decode text = some o)
  | dir (path name text : Str) (type : c.type = g!"dir") (uri : L.parseURI c.url = some path)
      (mem : (name, some text) ∈
        files (Path.base (Path.join2 (Str.trimPrefix path g!"/") c.workingDirectory))
          (L.tree (Path.join2 (Str.trimPrefix path g!"/") c.workingDirectory)))
      (json : JsonName name) (decoded : L.decode text = some o)

/-- The advisory is in a `.json` file of the archive. -/
def InArchive (decode : Str → Option OSV) (es : List ZipEntry) (o : OSV) : Prop :=
  ∃ e ∈ es, JsonName e.name ∧ ∃ text, e.content = some text ∧ decode text = some o

/-- The first advisory is excused by the second, perhaps through a third one: they share IDs or aliases. -/
def Linked (a b : OSV) : Prop := ∃ v, Related a v ∧ Related v b

end Osv.Spec
