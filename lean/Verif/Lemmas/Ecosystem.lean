import Verif.Spec.Ecosystem
import Verif.Lemmas.Str
import Verif.Lemmas.RegexEval
import Verif.Model.Osv
/-! Lemmas about ecosystems and names. -/
namespace Osv
open Spec Str

theorem areEcosystemsEqual_iff (a b : Str) : areEcosystemsEqual a b = true ↔ EcoMatch a b := by
  unfold areEcosystemsEqual EcoMatch
  simp only [cut_char_eq, ecoBase, ecoSuffix]
  split
  · rename_i h
    simp only [Bool.and_eq_true, decide_eq_true_eq]
    constructor
    · rintro ⟨h1, h2⟩; exact ⟨h1, fun _ _ => h2⟩
    · rintro ⟨h1, h2⟩; exact ⟨h1, h2 h.1 h.2⟩
  · rename_i h
    simp only [decide_eq_true_eq]
    constructor
    · intro h1; exact ⟨h1, fun h2 h3 => absurd ⟨h2, h3⟩ h⟩
    · rintro ⟨h1, _⟩; exact h1

theorem normalizedEcosystem_eq (p : Package) : p.normalizedEcosystem = ecoBase p.ecosystem := by
  simp [Package.normalizedEcosystem, cut_char_eq, ecoBase]

theorem pep503_cons_nonsep (c : Char) (s : Str) (h : isNameSep c = false) :
    pep503 (c :: s) = c.toLower :: pep503 s := by
  cases s <;> simp [pep503, h]

theorem pep503_run (x s : Str) (hx : x ≠ []) (hall : x.all isNameSep = true)
    (hs : ∀ c ∈ s.head?, isNameSep c = false) : pep503 (x ++ s) = '-' :: pep503 s := by
  induction x with
  | nil => exact absurd rfl hx
  | cons c x ih =>
    simp only [List.all_cons, Bool.and_eq_true] at hall
    cases x with
    | nil =>
      cases s with
      | nil => simp [pep503, hall.1]
      | cons d s =>
        have : isNameSep d = false := hs d (by simp)
        simp [pep503, hall.1, this]
    | cons d x =>
      have hd : isNameSep d = true := by simpa using (List.all_eq_true.mp hall.2) d (by simp)
      have := ih (by simp) hall.2
      simp only [List.cons_append] at this ⊢
      rw [pep503, if_pos hall.1, if_pos hd]
      exact this

/-- A text splits into a first separator run and what follows. -/
theorem sep_run_split (c : Char) (s : Str) (h : isNameSep c = true) :
    ∃ x t, c :: s = x ++ t ∧ x ≠ [] ∧ x.all isNameSep = true ∧ ∀ d ∈ t.head?, isNameSep d = false := by
  refine ⟨(c :: s).takeWhile isNameSep, (c :: s).dropWhile isNameSep, ?_, ?_, ?_, ?_⟩
  · rw [List.takeWhile_append_dropWhile]
  · simp [h]
  · simp
  · intro d hd
    have := List.head?_dropWhile_not isNameSep (c :: s)
    cases e : (c :: s).dropWhile isNameSep with
    | nil => simp [e] at hd
    | cons a as => simp only [e, List.head?_cons, Option.mem_def, Option.some.injEq] at this hd; rw [← hd]; exact this

theorem replaceFrom_names (fuel : Nat) (bol : Bool) (s : Str) (h : s.length < fuel) :
    toLower (reNameSeparators.replaceFrom ['-'] fuel bol s) = pep503 s := by
  induction fuel generalizing bol s with
  | zero => omega
  | succ n ih =>
    unfold Re.replaceFrom
    have hre : reNameSeparators = Re.plus (.cls isNameSep) := rfl
    rw [hre, Re.findFrom_plus_cls]
    simp only
    have hsplit : s = s.takeWhile (fun c => !isNameSep c) ++ s.dropWhile (fun c => !isNameSep c) :=
      (List.takeWhile_append_dropWhile).symm
    have hpre : ∀ (p t : Str), p.all (fun c => !isNameSep c) = true →
        pep503 (p ++ t) = p.map Char.toLower ++ pep503 t := by
      intro p t hp
      induction p with
      | nil => rfl
      | cons c p ihp =>
        simp only [List.all_cons, Bool.and_eq_true, Bool.not_eq_true'] at hp
        rw [List.cons_append, pep503_cons_nonsep _ _ hp.1, ihp hp.2]; rfl
    have hpall : (s.takeWhile (fun c => !isNameSep c)).all (fun c => !isNameSep c) = true := by simp
    cases hr : s.dropWhile (fun c => !isNameSep c) with
    | nil =>
      simp only [List.isEmpty_nil, if_true]
      rw [hr, List.append_nil] at hsplit
      have := hpre _ [] hpall
      rw [List.append_nil, ← hsplit] at this
      simpa [toLower, pep503] using this.symm
    | cons c t =>
      have hc : isNameSep c = true := by
        have := List.head?_dropWhile_not (fun c => !isNameSep c) s
        rw [hr] at this
        simpa using this
      simp only [List.isEmpty_cons, Bool.false_eq_true, if_false]
      have hne : ((c :: t).takeWhile isNameSep).isEmpty = false := by simp [hc]
      rw [if_neg (by simp [hne])]
      have hdrop : ((c :: t).dropWhile isNameSep).length < n := by
        have h1 : (s.dropWhile (fun c => !isNameSep c)).length ≤ s.length := (List.dropWhile_sublist _).length_le
        rw [hr] at h1
        simp only [List.dropWhile_cons, hc, if_true]
        have h2 : (t.dropWhile isNameSep).length ≤ t.length := (List.dropWhile_sublist _).length_le
        simp at h1; omega
      have ih' := ih false ((c :: t).dropWhile isNameSep) hdrop
      rw [hre] at ih'
      have hrun := pep503_run ((c :: t).takeWhile isNameSep) ((c :: t).dropWhile isNameSep)
        (by simp [hc]) (by simp) (by
          intro d hd
          have := List.head?_dropWhile_not isNameSep (c :: t)
          cases e : (c :: t).dropWhile isNameSep with
          | nil => simp [e] at hd
          | cons a as =>
            simp only [e, List.head?_cons, Option.mem_def, Option.some.injEq] at this hd
            rw [← hd]; exact this)
      rw [List.takeWhile_append_dropWhile] at hrun
      conv => rhs; rw [hsplit, hr, hpre _ _ hpall, hrun]
      simp only [toLower, List.map_append] at ih' ⊢
      rw [ih']
      simp

/-- The regular expression replacement followed by lower-casing is PEP 503 normalisation. -/
theorem normalizedName_pypi (name : Str) :
    toLower (reNameSeparators.replaceAll g!"-" name) = pep503 name :=
  replaceFrom_names _ _ _ (by omega)

theorem normalizedName_eq (p : Package) :
    p.normalizedName = if ecoBase p.ecosystem = g!"PyPI" then pep503 p.name else p.name := by
  unfold Package.normalizedName
  rw [normalizedEcosystem_eq, normalizedName_pypi]
  unfold pipEcosystem
  split <;> simp_all

/-- Names in normal form: no upper-case letters, `_` or `.`, and no two adjacent separators. -/
def NormalForm (s : Str) : Prop :=
  (∀ c ∈ s, c.toLower = c ∧ c ≠ '_' ∧ c ≠ '.') ∧ ¬ ∃ a b, s = a ++ '-' :: '-' :: b

theorem toLower_not_sep (c : Char) (h : isNameSep c = false) : isNameSep c.toLower = false := by
  unfold Char.toLower
  split
  · rename_i hu
    simp only [isNameSep, Bool.or_eq_false_iff, beq_eq_false_iff_ne, ne_eq]
    refine ⟨⟨?_, ?_⟩, ?_⟩ <;>
    · intro e
      have := congrArg Char.val e
      simp at this
      have h2 := hu.1; have h3 := hu.2
      simp [UInt32.le_iff_toNat_le] at h2 h3
      have := congrArg UInt32.toNat this
      simp at this
      omega
  · exact h

end Osv
