import Verif.Lemmas.Ecosystem
/-! # C09 PyPI advisory names are matched up to PEP 503 normalisation -/
namespace Osv
open Spec Str

/-- Induction over a name: nothing, a non-separator, or a maximal separator run. -/
theorem name_induction {P : Str → Prop} (nil : P [])
    (char : ∀ c s, isNameSep c = false → P s → P (c :: s))
    (run : ∀ x t, x ≠ [] → x.all isNameSep = true → (∀ c ∈ t.head?, isNameSep c = false) → P t → P (x ++ t)) :
    ∀ s, P s := by
  have : ∀ n s, s.length ≤ n → P s := by
    intro n
    induction n with
    | zero => intro s h; rw [List.length_eq_zero_iff.mp (Nat.le_zero.mp h)]; exact nil
    | succ n ih =>
      intro s h
      cases s with
      | nil => exact nil
      | cons c s =>
        cases hc : isNameSep c with
        | false => exact char c s hc (ih s (by simpa using h))
        | true =>
          obtain ⟨x, t, e, hx, hall, ht⟩ := sep_run_split c s hc
          rw [e]
          refine run x t hx hall ht (ih t ?_)
          have h1 : (c :: s).length = x.length + t.length := by rw [e]; simp
          have h2 : 0 < x.length := List.length_pos_iff.mpr hx
          simp at h1 h; omega
  exact fun s => this s.length s (Nat.le_refl _)

theorem head_pep503 (t : Str) (h : ∀ c ∈ t.head?, isNameSep c = false) :
    ∀ c ∈ (pep503 t).head?, isNameSep c = false := by
  cases t with
  | nil => simp [pep503]
  | cons d t =>
    have hd : isNameSep d = false := h d (by simp)
    rw [pep503_cons_nonsep d t hd]
    intro c hc
    simp at hc
    rw [← hc]; exact toLower_not_sep d hd

theorem toLower_idem (c : Char) : c.toLower.toLower = c.toLower := by
  by_cases h : c.val ≥ 'A'.val ∧ c.val ≤ 'Z'.val
  · have h1 : c.toLower.val = c.val + ('a'.val - 'A'.val) := by unfold Char.toLower; rw [dif_pos h]
    have hnot : ∀ d : Char, ¬ (d.val ≥ 'A'.val ∧ d.val ≤ 'Z'.val) → d.toLower = d := by
      intro d hd; unfold Char.toLower; rw [dif_neg hd]
    apply hnot
    rintro ⟨-, h3⟩
    rw [h1] at h3
    have h4 := h.1; have h5 := h.2
    rw [UInt32.le_iff_toNat_le] at h3 h5
    rw [ge_iff_le, UInt32.le_iff_toNat_le] at h4
    rw [UInt32.toNat_add] at h3
    have e1 : 'A'.val.toNat = 65 := rfl
    have e2 : 'Z'.val.toNat = 90 := rfl
    have e3 : ('a'.val - 'A'.val).toNat = 32 := rfl
    rw [e3] at h3
    omega
  · have : c.toLower = c := by unfold Char.toLower; rw [dif_neg h]
    rw [this, this]

/-- The name used for matching: PEP 503 normalisation for PyPI (with or without an ecosystem suffix), the
name itself for every other ecosystem. -/
theorem C09_normalized_name (p : Package) :
    p.normalizedName = if ecoBase p.ecosystem = g!"PyPI" then pep503 p.name else p.name :=
  normalizedName_eq p

/-- Normalisation is idempotent. -/
theorem C09_idempotent (p : Package) :
    Package.normalizedName ⟨p.normalizedName, p.ecosystem⟩ = p.normalizedName := by
  rw [normalizedName_eq, normalizedName_eq]
  split
  · refine name_induction (P := fun s => pep503 (pep503 s) = pep503 s) rfl ?_ ?_ p.name
    · intro c s hc ih
      rw [pep503_cons_nonsep c s hc, pep503_cons_nonsep _ _ (toLower_not_sep c hc), ih, toLower_idem]
    · intro x t hx hall ht ih
      rw [pep503_run x t hx hall ht]
      have := pep503_run ['-'] (pep503 t) (by simp) (by decide) (head_pep503 t ht)
      rw [List.singleton_append] at this
      rw [this, ih]
  · rfl

theorem pep503_eq_iff (s t : Str) : pep503 s = pep503 t ↔ SamePyPI s t := by
  constructor
  · revert t
    refine name_induction (P := fun s => ∀ t, pep503 s = pep503 t → SamePyPI s t) ?_ ?_ ?_ s
    · intro t h
      cases t with
      | nil => exact .nil
      | cons d t =>
        cases hd : isNameSep d with
        | false => rw [pep503_cons_nonsep d t hd] at h; simp [pep503] at h
        | true =>
          obtain ⟨x, u, e, hx, hall, hu⟩ := sep_run_split d t hd
          rw [e, pep503_run x u hx hall hu] at h; simp [pep503] at h
    · intro c s hc ih t h
      rw [pep503_cons_nonsep c s hc] at h
      cases t with
      | nil => simp [pep503] at h
      | cons d t =>
        cases hd : isNameSep d with
        | false =>
          rw [pep503_cons_nonsep d t hd] at h
          simp only [List.cons.injEq] at h
          exact .char hc hd h.1 (ih t h.2)
        | true =>
          obtain ⟨x, u, e, hx, hall, hu⟩ := sep_run_split d t hd
          rw [e, pep503_run x u hx hall hu] at h
          simp only [List.cons.injEq] at h
          have := toLower_not_sep c hc
          rw [h.1] at this; exact absurd this (by decide)
    · intro x s hx hall hs ih t h
      rw [pep503_run x s hx hall hs] at h
      cases t with
      | nil => simp [pep503] at h
      | cons d t =>
        cases hd : isNameSep d with
        | false =>
          rw [pep503_cons_nonsep d t hd] at h
          simp only [List.cons.injEq] at h
          have := toLower_not_sep d hd
          rw [← h.1] at this; exact absurd this (by decide)
        | true =>
          obtain ⟨y, u, e, hy, hall', hu⟩ := sep_run_split d t hd
          rw [e, pep503_run y u hy hall' hu] at h
          simp only [List.cons.injEq, true_and] at h
          rw [e]
          exact .run hx hy hall hall' hs hu (ih u h)
  · intro h
    induction h with
    | nil => rfl
    | char hc hd hcd _ ih => rw [pep503_cons_nonsep _ _ hc, pep503_cons_nonsep _ _ hd, ih, hcd]
    | run hx hy hxa hya hs ht _ ih => rw [pep503_run _ _ hx hxa hs, pep503_run _ _ hy hya ht, ih]

/-- Two PyPI advisory names are matched the same exactly when they name the same project by PEP 503. -/
theorem C09_same_name_iff (n m : Str) (eco : Ecosystem) (h : ecoBase eco = g!"PyPI") :
    Package.normalizedName ⟨n, eco⟩ = Package.normalizedName ⟨m, eco⟩ ↔ SamePyPI n m := by
  rw [normalizedName_eq, normalizedName_eq]
  simp only [if_pos h]
  exact pep503_eq_iff n m

/-- Other ecosystems use the name verbatim. -/
theorem C09_other_verbatim (n : Str) (eco : Ecosystem) (h : ecoBase eco ≠ g!"PyPI") :
    Package.normalizedName ⟨n, eco⟩ = n := by
  rw [normalizedName_eq]; simp only [if_neg h]

example : ecoBase g!"PyPI:x" = g!"PyPI" ∧
    Package.normalizedName ⟨g!"Foo_.-Bar", g!"PyPI"⟩ = g!"foo-bar" ∧
    Package.normalizedName ⟨g!"Foo_.-Bar", g!"npm"⟩ = g!"Foo_.-Bar" := by decide

end Osv
