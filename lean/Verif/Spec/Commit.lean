import Verif.Go.Str
/-! # Resolutions that name a commit -/
namespace Osv.Spec
open Osv Str

/-- A commit as written in a resolution: letters, digits and underscores. -/
def CommitText (c : Str) : Prop := c ≠ [] ∧ ∀ x ∈ c, isWord x = true

/-- Nothing, or some text up to an `@`, as in `name@git://…`. -/
def AtPrefix (pre : Str) : Prop := pre = [] ∨ ∃ u, u ≠ [] ∧ pre = u ++ ['@']

/-- `CommitForm s c`: the resolution `s` has one of the forms of a git dependency pinned to `c`. -/
inductive CommitForm : Str → Str → Prop
  /-- `git://…#c`, `ssh://…#c`, `git+ssh://…#c`, `git+https://…#c` -/
  | scheme (pre sch body c : Str) : AtPrefix pre → (sch = g!"git" ∨ sch = g!"git+ssh" ∨ sch = g!"git+https" ∨ sch = g!"ssh") →
      body ≠ [] → CommitForm (pre ++ sch ++ g!"://" ++ body ++ '#' :: c) c
  /-- `https://….git#c` -/
  | https (pre body c : Str) : AtPrefix pre → body ≠ [] → CommitForm (pre ++ g!"https://" ++ body ++ g!".git" ++ '#' :: c) c
  /-- `https://codeload.github.com/owner/repository/tar.gz/c` -/
  | codeload (pre o r c : Str) : o ≠ [] → (∀ x ∈ o, isWord x = true ∨ x = '-' ∨ x = '.') →
      r ≠ [] → (∀ x ∈ r, isWord x = true ∨ x = '-' ∨ x = '.') →
      CommitForm (pre ++ g!"https://codeload.github.com" ++ '/' :: o ++ '/' :: r ++ g!"/tar.gz" ++ '/' :: c) c
  /-- `…#commit:c` or `…#commit=c` -/
  | fragment (body : Str) (d : Char) (c : Str) : body ≠ [] → (d = ':' ∨ d = '=') → CommitForm (body ++ g!"#commit" ++ d :: c) c
  /-- `github:…#c`, `gitlab:…#c`, `bitbucket:…#c` -/
  | shorthand (host body c : Str) : (host = g!"github" ∨ host = g!"gitlab" ∨ host = g!"bitbucket") → body ≠ [] →
      CommitForm (host ++ ':' :: (body ++ '#' :: c)) c

/-- The tarball of a package in a registry: `https://host/path.tgz`, possibly with the checksum after `#`. -/
def RegistryTarball (s host : Str) : Prop :=
  ∃ path sum, host ≠ [] ∧ (∀ x ∈ host, x ≠ '/' ∧ x ≠ '?' ∧ x ≠ '#' ∧ x ≠ '@' ∧ x ≠ ':' ∧ x ≠ '\n') ∧
    '#' ∉ path ∧ '\n' ∉ path ∧ (∀ a b, path ≠ a ++ g!"://" ++ b) ∧
    (sum = [] ∨ ∃ c, sum = '#' :: c ∧ CommitText c) ∧
    s = g!"https://" ++ host ++ '/' :: path ++ g!".tgz" ++ sum

end Osv.Spec
