import Verif.Lemmas.Run
/-! # C59 Report summary counts -/
namespace Osv
open Str

/-- All vulnerabilities that are listed as known, over all packages. -/
def Report.known (r : Report) : List OSV := r.packages.flatMap (·.vulnerabilities)

/-- All vulnerabilities that are listed as ignored. -/
def Report.ignoredAll (r : Report) : List OSV := r.packages.flatMap (·.ignored)

/-- The numbers are the numbers of vulnerabilities; the report has known ones exactly if a package lists one. -/
theorem C59_counts (r : Report) :
    r.countKnown = r.known.length ∧ r.countIgnored = r.ignoredAll.length ∧
    (r.hasKnown = true ↔ ∃ p ∈ r.packages, p.vulnerabilities ≠ []) ∧
    (r.hasIgnored = true ↔ ∃ p ∈ r.packages, p.ignored ≠ []) := by
  have count : ∀ (g : PkgReport → List OSV) (ps : List PkgReport) (n : Nat),
      ps.foldl (fun n p => n + (g p).length) n = n + (ps.flatMap g).length := by
    intro g ps
    induction ps with
    | nil => simp
    | cons p ps ih => intro n; rw [List.foldl_cons, ih, List.flatMap_cons, List.length_append]; omega
  have pos : ∀ (g : PkgReport → List OSV) (ps : List PkgReport), (ps.flatMap g).length > 0 ↔ ∃ p ∈ ps, g p ≠ [] := by
    intro g ps
    rw [gt_iff_lt, List.length_pos_iff_exists_mem]
    constructor
    · rintro ⟨v, hv⟩
      obtain ⟨p, hp, hv⟩ := List.mem_flatMap.1 hv
      exact ⟨p, hp, List.ne_nil_of_mem hv⟩
    · rintro ⟨p, hp, hne⟩
      obtain ⟨v, hv⟩ := List.exists_mem_of_ne_nil _ hne
      exact ⟨v, List.mem_flatMap.2 ⟨p, hp, hv⟩⟩
  have hk : r.countKnown = r.known.length := by
    unfold Report.countKnown Report.known
    rw [count (fun p => p.vulnerabilities)]; simp
  have hi : r.countIgnored = r.ignoredAll.length := by
    unfold Report.countIgnored Report.ignoredAll
    rw [count (fun p => p.ignored)]; simp
  refine ⟨hk, hi, ?_, ?_⟩
  · unfold Report.hasKnown
    rw [decide_eq_true_eq, hk]
    exact pos _ _
  · unfold Report.hasIgnored
    rw [decide_eq_true_eq, hi]
    exact pos _ _

/-- The heading of a package in the text. -/
def pkgHeading (paint : Color → Str → Str) (p : PackageDetails) : Str :=
  g!"  " ++ paint .yellow (p.name ++ g!"@" ++ p.version) ++ g!" " ++ paint .red g!"is affected by the following vulnerabilities:"

/-- The line of a vulnerability in the text. -/
def vulnLine (paint : Color → Str → Str) (describe : OSV → Str) (v : OSV) : Str :=
  g!"    " ++ paint .cyan (v.id ++ g!":") ++ g!" " ++ describe v

/-- The text consists of the packages with a known vulnerability, in order, each followed by its known vulnerabilities. -/
theorem C59_lines (paint : Color → Str → Str) (describe : OSV → Str) (r : Report) :
    r.formatLineByLine paint describe = join g!"\n"
      ((r.packages.filter fun p => decide (p.vulnerabilities ≠ [])).flatMap fun p =>
        pkgHeading paint p.pkg :: p.vulnerabilities.map (vulnLine paint describe)) := by
  unfold Report.formatLineByLine
  have : ∀ (ps : List PkgReport) (acc : List Str), ps.foldl (fun ls p => ls ++ p.lines paint describe) acc =
      acc ++ (ps.filter fun p => decide (p.vulnerabilities ≠ [])).flatMap fun p =>
        pkgHeading paint p.pkg :: p.vulnerabilities.map (vulnLine paint describe) := by
    intro ps
    induction ps with
    | nil => simp
    | cons p ps ih =>
      intro acc
      rw [List.foldl_cons, ih, List.filter_cons]
      unfold PkgReport.lines
      by_cases h : p.vulnerabilities = []
      · simp [h]
      · have h' : p.vulnerabilities.length ≠ 0 := fun h'' => h (List.length_eq_zero_iff.1 h'')
        simp [h, pkgHeading, vulnLine]
  rw [this, List.nil_append]

/-- The phrase about ignored vulnerabilities. -/
def ignoredPhrase (paint : Color → Str → Str) (n : Nat) : Str :=
  if n = 0 then [] else paint .yellow (g!" (" ++ showNat n ++ (if n = 1 then g!" was ignored)" else g!" were ignored)"))

/-- The summary line has the right numbers, whatever the colours (as long as colouring keeps text visible). -/
theorem C59_summary (paint : Color → Str → Str) (hpaint : ∀ c s, s ≠ [] → paint c s ≠ []) (describe : OSV → Str) (r : Report) :
    r.text paint describe =
      let word := if r.ignoredAll = [] then g!"known" else g!"new"
      if r.known = [] then
        g!"  " ++ paint .green (g!"no " ++ word ++ g!" vulnerabilities found") ++ ignoredPhrase paint r.ignoredAll.length ++ g!"\n"
      else r.formatLineByLine paint describe ++ g!"\n" ++ (g!"\n  " ++
        paint .red (showNat r.known.length ++ g!" " ++ word ++
          (if r.known.length = 1 then g!" vulnerability" else g!" vulnerabilities") ++ g!" found in " ++ r.lockfile.filePath) ++
        ignoredPhrase paint r.ignoredAll.length ++ g!"\n") := by
  obtain ⟨hk, hi, -, -⟩ := C59_counts r
  have hd : r.describeIgnores paint = ignoredPhrase paint r.ignoredAll.length := by
    unfold Report.describeIgnores ignoredPhrase form
    dsimp only
    rw [hi]
    by_cases h1 : r.ignoredAll.length = 1 <;> simp [h1]
  have hw : (if ignoredPhrase paint r.ignoredAll.length ≠ [] then g!"new" else g!"known") =
      if r.ignoredAll = [] then g!"known" else g!"new" := by
    by_cases h : r.ignoredAll = []
    · simp [h, ignoredPhrase]
    · rw [if_neg h, if_pos]
      unfold ignoredPhrase
      rw [if_neg (fun h' => h (List.length_eq_zero_iff.1 h'))]
      exact hpaint _ _ (by simp)
  unfold Report.text
  dsimp only
  rw [hd, hw, hk]
  by_cases h : r.known = []
  · simp [h]
  · have h' : r.known.length ≠ 0 := fun h'' => h (List.length_eq_zero_iff.1 h'')
    rw [if_neg h', if_neg h]
    unfold form
    by_cases h1 : r.known.length = 1 <;> simp [h1]

/-- Numbers are shown in decimal: reading the digits gives the number back. -/
theorem C59_number (n : Nat) : Nat.ofDigitChars 10 (showNat n) 0 = n ∧ ∀ c ∈ showNat n, c.isDigit = true := by
  unfold showNat
  rw [Nat.toList_repr]
  exact ⟨Nat.ofDigitChars_ten_toDigits, fun c hc => Nat.isDigit_of_mem_toDigits (by decide) (by decide) hc⟩

/-! ### Non-vacuity -/

def sampleReport : Report :=
  ⟨⟨g!"go.mod", g!"go.mod", []⟩, [⟨{ name := g!"a", version := g!"1", ecosystem := [], compareAs := [] }, [{ id := g!"X" }], [{ id := g!"Y" }]⟩,
    ⟨{ name := g!"b", version := g!"2", ecosystem := [], compareAs := [] }, [], []⟩]⟩

example : ∀ c s, s ≠ [] → (fun (_ : Color) (s : Str) => s) c s ≠ [] := fun _ _ h => h
example : sampleReport.text (fun _ s => s) (fun _ => g!"d") =
    g!"  a@1 is affected by the following vulnerabilities:\n    X: d\n\n  1 new vulnerability found in go.mod (1 was ignored)\n" := by
  decide +kernel

end Osv
