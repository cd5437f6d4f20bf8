import Verif.Spec.Bun
import Verif.Spec.Text
import Verif.Lemmas.JsonTyped
import Verif.Lemmas.Npm
/-! # Tuples of bun.lock -/
namespace Osv.Bun
open Osv Str Spec

theorem cut_char {c : Char} {a b : Str} (h : c ∉ a) : cut (a ++ c :: b) [c] = (a, b) := by
  unfold cut; rw [cut?_char c a b h]

theorem cut_none {c : Char} {a : Str} (h : c ∉ a) : cut a [c] = (a, []) := by
  unfold cut
  have : cut? [c] a = none := cut?_none_iff.2 (by rintro x y rfl; simp at h)
  rw [this]

/-- Name and rest of a head that starts with a name. -/
theorem name_rest {name rest : Str} (h : NpmName name) :
    (let sc := cutPrefix (name ++ '@' :: rest) g!"@"; let nv := cut sc.1 g!"@"
     (if sc.2 then g!"@" ++ nv.1 else nv.1, nv.2)) = (name, rest) := by
  obtain ⟨c, r, rfl, hr⟩ := h
  by_cases hc : c = '@'
  · subst hc
    have : cutPrefix (('@' :: r) ++ '@' :: rest) g!"@" = (r ++ '@' :: rest, true) := by
      simp [cutPrefix, hasPrefix]
    rw [this]
    dsimp only
    rw [cut_char hr]
    rfl
  · have : cutPrefix ((c :: r) ++ '@' :: rest) g!"@" = ((c :: r) ++ '@' :: rest, false) := by
      simp [cutPrefix, hasPrefix, Ne.symm hc]
    rw [this]
    dsimp only
    rw [cut_char (by simp [hr, Ne.symm hc])]
    rfl

theorem name_only {name : Str} (h : NpmName name) :
    (let sc := cutPrefix name g!"@"; let nv := cut sc.1 g!"@"
     (if sc.2 then g!"@" ++ nv.1 else nv.1, nv.2)) = (name, []) := by
  obtain ⟨c, r, rfl, hr⟩ := h
  by_cases hc : c = '@'
  · subst hc
    have : cutPrefix ('@' :: r) g!"@" = (r, true) := by
      simp [cutPrefix, hasPrefix]
    rw [this]
    dsimp only
    rw [cut_none hr]
    rfl
  · have : cutPrefix (c :: r) g!"@" = (c :: r, false) := by
      simp [cutPrefix, hasPrefix, Ne.symm hc]
    rw [this]
    dsimp only
    rw [cut_none (by simp [hr, Ne.symm hc])]
    rfl

/-- Every head that is not empty starts with a name. -/
theorem head_cases (s : Str) : s = [] ∨ NpmName s ∨ ∃ name rest, NpmName name ∧ s = name ++ '@' :: rest := by
  cases s with
  | nil => exact Or.inl rfl
  | cons c r =>
    by_cases h : '@' ∈ r
    · obtain ⟨a, b, e, ha⟩ := List.eq_append_cons_of_mem h
      exact Or.inr (Or.inr ⟨c :: a, b, ⟨c, a, rfl, ha⟩, by simp [e]⟩)
    · exact Or.inr (Or.inl ⟨c, r, rfl, h⟩)

/-- Version and commit of what follows the `@`. -/
def versionOf (rest : Str) : Str × Str :=
  let vc := cut rest g!"#"
  let version := if vc.2 ≠ [] then [] else vc.1
  (if hasPrefix version g!"file:" then [] else version, vc.2)

theorem structure_eq {s name rest : Str} (tail : List JVal)
    (h : (let sc := cutPrefix s g!"@"; let nv := cut sc.1 g!"@"; (if sc.2 then g!"@" ++ nv.1 else nv.1, nv.2)) = (name, rest)) :
    structurePackageDetails (.str s :: tail) = some (name, (versionOf rest).1, (versionOf rest).2) := by
  unfold structurePackageDetails versionOf
  dsimp only at h ⊢
  injection h with h1 h2
  rw [h1, h2]

theorem version_plain {v : Str} (h : '#' ∉ v) (hf : ∀ r, v ≠ g!"file:" ++ r) : versionOf v = (v, []) := by
  unfold versionOf
  rw [cut_none h]
  simp only [ne_eq, not_true_eq_false, if_false]
  rw [if_neg (by rw [hasPrefix_iff]; exact fun ⟨t, e⟩ => hf t e)]

theorem version_empty {v : Str} (h : '#' ∉ v) (hf : ∀ r, v ≠ g!"file:" ++ r) : versionOf (v ++ ['#']) = (v, []) := by
  unfold versionOf
  rw [cut_char h]
  simp only [ne_eq, not_true_eq_false, if_false]
  rw [if_neg (by rw [hasPrefix_iff]; exact fun ⟨t, e⟩ => hf t e)]

theorem version_file {r : Str} (h : '#' ∉ r) : versionOf (g!"file:" ++ r) = ([], []) := by
  unfold versionOf
  rw [cut_none (by simpa using h)]
  simp only [ne_eq, not_true_eq_false, if_false]
  rw [if_pos (hasPrefix_append _ _)]

theorem version_fileEmpty {r : Str} (h : '#' ∉ r) : versionOf (g!"file:" ++ r ++ ['#']) = ([], []) := by
  unfold versionOf
  rw [cut_char (by simpa using h)]
  simp only [ne_eq, not_true_eq_false, if_false]
  rw [if_pos (hasPrefix_append _ _)]

theorem version_commit {src commit : Str} (h : '#' ∉ src) (hc : commit ≠ []) :
    versionOf (src ++ '#' :: commit) = ([], commit) := by
  unfold versionOf
  rw [cut_char h]
  simp [hc, hasPrefix]

/-- The package of a head. -/
theorem head_spec {s : Str} {p : PackageDetails} (tail : List JVal) (h : BunHead s p) :
    structurePackageDetails (.str s :: tail) = some (p.name, p.version, p.commit) ∧ p.name ≠ [] ∧ p = npm p.name p.version p.commit := by
  have hne : ∀ {name : Str}, NpmName name → name ≠ [] := by rintro _ ⟨c, r, rfl, _⟩; simp
  cases h with
  | version hn h1 h2 => exact ⟨by rw [structure_eq tail (name_rest hn), version_plain h1 h2]; rfl, hne hn, rfl⟩
  | @commit name source c hn h1 h2 =>
    refine ⟨?_, hne hn, rfl⟩
    have := structure_eq tail (name_rest (rest := source ++ '#' :: c) hn)
    rw [version_commit h1 h2] at this
    rw [← List.cons_append] at this
    simpa [npm] using this
  | @file name path hn h1 =>
    refine ⟨?_, hne hn, rfl⟩
    have := structure_eq tail (name_rest (rest := g!"file:" ++ path) hn)
    rw [version_file h1] at this
    simpa [npm] using this
  | @emptyCommit name version hn h1 h2 =>
    refine ⟨?_, hne hn, rfl⟩
    have := structure_eq tail (name_rest (rest := version ++ ['#']) hn)
    rw [version_empty h1 h2] at this
    simpa [npm] using this
  | @emptyCommitFile name path hn h1 =>
    refine ⟨?_, hne hn, rfl⟩
    have := structure_eq tail (name_rest (rest := g!"file:" ++ path ++ ['#']) hn)
    rw [version_fileEmpty h1] at this
    simpa [npm] using this
  | bare hn => exact ⟨by rw [structure_eq tail (name_only hn)]; rfl, hne hn, rfl⟩

/-- Every head but the empty one stands for a package. -/
theorem head_exists (s : Str) (h : s ≠ []) : ∃ p, BunHead s p := by
  rcases head_cases s with rfl | hn | ⟨name, rest, hn, rfl⟩
  · exact absurd rfl h
  · exact ⟨_, .bare hn⟩
  · have hcut : (∃ a b, rest = a ++ '#' :: b ∧ '#' ∉ a) ∨ '#' ∉ rest := by
      by_cases hr : '#' ∈ rest
      · exact Or.inl (List.eq_append_cons_of_mem hr)
      · exact Or.inr hr
    have hfile : ∀ v : Str, (∃ r, v = g!"file:" ++ r) ∨ ∀ r, v ≠ g!"file:" ++ r := fun v =>
      (Classical.em _).imp id fun h r e => h ⟨r, e⟩
    rcases hcut with ⟨a, b, rfl, ha⟩ | hr
    · by_cases hb : b = []
      · subst hb
        rcases hfile a with ⟨r, rfl⟩ | hf
        · exact ⟨npm name [] [], by simpa using BunHead.emptyCommitFile hn (by simpa using ha)⟩
        · exact ⟨npm name a [], by simpa using BunHead.emptyCommit hn ha hf⟩
      · exact ⟨npm name [] b, by simpa using BunHead.commit hn ha hb⟩
    · rcases hfile rest with ⟨r, rfl⟩ | hf
      · exact ⟨npm name [] [], by simpa using BunHead.file hn (by simpa using hr)⟩
      · exact ⟨_, .version hn hr hf⟩

theorem head_unique {s : Str} {p q : PackageDetails} (h : BunHead s p) (h' : BunHead s q) : p = q := by
  obtain ⟨e, _, hp⟩ := head_spec [] h
  obtain ⟨e', _, hq⟩ := head_spec [] h'
  rw [e] at e'
  injection e' with e'
  simp only [Prod.mk.injEq] at e'
  rw [hp, hq, e'.1, e'.2.1, e'.2.2]

theorem head_nil (p : PackageDetails) : ¬ BunHead [] p := by
  intro h
  have := (head_spec [] h)
  have e : structurePackageDetails [.str []] = some ([], [], []) := by decide
  rw [e] at this
  exact this.2.1 (by have := this.1; injection this with this; exact (congrArg Prod.fst this).symm)

end Osv.Bun
