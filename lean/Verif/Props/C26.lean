import Verif.Lemmas.Cells
import Verif.Spec.RunSamples
/-! # C26 Ignores split results exactly by ID and are monotone -/
namespace Osv
open Spec

/-- A merged vulnerability is ignored exactly when its ID is in the ignore list. -/
theorem C26_split (pkg : PackageDetails) (ig : List Str) (i : Nat) (all : List (List (List OSV))) :
    let res := transposePkgResults pkg ig i all
    ∀ v ∈ res.vulnerabilities ++ res.ignored,
      (v ∈ res.ignored ↔ v.id ∈ ig) ∧ (v ∈ res.vulnerabilities ↔ v.id ∉ ig) := by
  intro res v hv
  simp only [res, transpose_eq, List.mem_append, List.mem_filter] at hv ⊢
  have hu : v ∈ uniqueVulns (returned i all) := by rcases hv with h | h <;> exact h.1
  constructor
  · simp [hu, List.contains_iff_mem]
  · rw [← List.contains_iff_mem (as := ig)]
    cases ig.contains v.id <;> simp [hu]

theorem filter_append_perm (p : OSV → Bool) (l : List OSV) :
    (l.filter (fun v => !p v) ++ l.filter p).Perm l := by
  induction l with
  | nil => exact .refl _
  | cons v l ih =>
    cases hp : p v
    · rw [List.filter_cons_of_pos (by simp [hp]), List.filter_cons_of_neg (by simp [hp])]
      exact ih.cons v
    · rw [List.filter_cons_of_neg (by simp [hp]), List.filter_cons_of_pos hp]
      exact List.perm_middle.trans (ih.cons v)

/-- Which vulnerabilities are merged does not depend on the ignores. -/
theorem C26_merge_independent (pkg : PackageDetails) (ig ig' : List Str) (i : Nat) (all : List (List (List OSV))) :
    let res := transposePkgResults pkg ig i all
    let res' := transposePkgResults pkg ig' i all
    (res'.vulnerabilities ++ res'.ignored).Perm (res.vulnerabilities ++ res.ignored) := by
  intro res res'
  simp only [res, res', transpose_eq]
  exact (filter_append_perm (fun v => ig'.contains v.id) _).trans (filter_append_perm (fun v => ig.contains v.id) _).symm

theorem filter_sublist_filter (p q : OSV → Bool) (h : ∀ v, p v = true → q v = true) (l : List OSV) :
    (l.filter p).Sublist (l.filter q) := by
  induction l with
  | nil => exact .refl _
  | cons v l ih =>
    cases hp : p v
    · rw [List.filter_cons_of_neg (by simp [hp])]
      exact ih.trans ((List.sublist_cons_self v l).filter q)
    · rw [List.filter_cons_of_pos hp, List.filter_cons_of_pos (h v hp)]
      exact ih.cons_cons v

/-- More ignores: fewer reported and more ignored vulnerabilities. -/
theorem C26_monotone (pkg : PackageDetails) (ig ig' : List Str) (h : ig ⊆ ig') (i : Nat) (all : List (List (List OSV))) :
    PkgNarrower (transposePkgResults pkg ig i all) (transposePkgResults pkg ig' i all) := by
  have key : ∀ v : OSV, ig.contains v.id = true → ig'.contains v.id = true := by
    intro v hv
    rw [List.contains_iff_mem] at hv ⊢
    exact h hv
  refine ⟨rfl, ?_, ?_, C26_merge_independent pkg ig ig' i all⟩ <;> rw [transpose_eq, transpose_eq] <;> dsimp only
  · apply filter_sublist_filter
    intro v hv
    cases hc : ig.contains v.id with
    | false => rfl
    | true => rw [key v hc] at hv; exact hv
  · exact filter_sublist_filter _ _ key _

theorem ignoresFor_mono {env : Env} {file : Str → ConfigFile} (hm : MoreIgnores env.config file) (f : Flags)
    (g : List Str) (hg : f.globalIgnores ⊆ g) (c c' : Config) (hs : c.strip = c'.strip) (hc : CellOK env.config c)
    (hc' : CellOK file c') : ignoresFor f c ⊆ ignoresFor { f with globalIgnores := g } c' := by
  unfold ignoresFor
  dsimp only
  intro x hx
  rw [List.mem_append] at hx ⊢
  rcases hx with hx | hx
  · left
    split at hx
    · rename_i hcond
      have hp := strip_filePath hs
      obtain ⟨_, raw, h1, h2⟩ := hc hcond.1
      obtain ⟨_, raw', h1', h2'⟩ := hc' (hp ▸ hcond.1)
      rw [if_pos ⟨hp ▸ hcond.1, hcond.2⟩, h2']
      rw [h2] at hx
      rw [← hp] at h1'
      rcases hm c.filePath with ⟨r, r', e1, e2, _, hsub⟩ | ⟨h3, _⟩
      · rw [h1] at e1; rw [h1'] at e2
        cases e1; cases e2
        exact hsub hx
      · exact absurd h1 (h3 raw)
    · cases hx
  · exact .inr (hg hx)

theorem reportOf_narrower (f f' : Flags) (dbs : List DB) (c c' : Config) (i : Nat) (l : Lockfile)
    (hd : c.databases = c'.databases) (h : ignoresFor f c ⊆ ignoresFor f' c') :
    Narrower (.report (reportOf f dbs c i l)) (.report (reportOf f' dbs c' i l)) := by
  refine ⟨rfl, by simp [reportOf], ?_⟩
  intro k p p' hp hp'
  unfold reportOf at hp hp'
  simp only [List.getElem?_mapIdx] at hp hp'
  cases hk : l.packages[k]? with
  | none => rw [hk] at hp; cases hp
  | some pkg =>
    rw [hk] at hp hp'
    cases hp; cases hp'
    rw [hd]
    exact C26_monotone pkg _ _ h k _

theorem loopResults_narrower (f f' : Flags) (hl : f'.listPackages = f.listPackages) (dbs : List DB) (a b : List Config)
    (hs : a.map Config.strip = b.map Config.strip)
    (hi : ∀ k, ignoresFor f (a.getD k {}) ⊆ ignoresFor f' (b.getD k {})) (i : Nat) (files : List FileEntry) :
    (loopResults f dbs a i files).length = (loopResults f' dbs b i files).length ∧
    ∀ (k : Nat) x x', (loopResults f dbs a i files)[k]? = some x → (loopResults f' dbs b i files)[k]? = some x' →
      Narrower x x' := by
  induction files generalizing i with
  | nil => exact ⟨rfl, fun k x x' h => by cases h⟩
  | cons e es ih =>
    obtain ⟨h1, h2⟩ := ih (i + 1)
    unfold loopResults resultOf
    rw [hl]
    cases e.err with
    | true => exact ⟨by simpa using h1, by simpa using h2⟩
    | false =>
      simp only [Bool.false_eq_true, if_false, Option.toList_some, List.singleton_append, List.length_cons, h1,
        true_and]
      intro k x x' hx hx'
      cases k with
      | succ k => exact h2 k x x' (by simpa using hx) (by simpa using hx')
      | zero =>
        simp only [List.getElem?_cons_zero, Option.some.injEq] at hx hx'
        subst hx; subst hx'
        split
        · rfl
        · exact reportOf_narrower f f' dbs _ _ i e.lockf (strip_databases (strip_getD_of_map hs e.config)) (hi _)

theorem Narrower.vulnerable {x x' : Result} (h : Narrower x x') (hv : Vulnerable x') : Vulnerable x := by
  cases x with
  | lockfile l => cases x' with
    | lockfile l' => exact hv
    | report r' => exact h.elim
  | report r => cases x' with
    | lockfile l' => exact h.elim
    | report r' =>
      obtain ⟨_, hlen, hk⟩ := h
      obtain ⟨p', hp', v, hvp⟩ := hv
      obtain ⟨k, hk', rfl⟩ := List.getElem_of_mem hp'
      have hk2 : k < r.packages.length := by omega
      exact ⟨r.packages[k], List.getElem_mem _, v,
        (hk k _ _ (List.getElem?_eq_getElem hk2) (List.getElem?_eq_getElem hk')).2.1.subset hvp⟩

/-- Two whole runs, the second with more ignores on the command line or in config files: the results correspond,
each of the second being the first with more vulnerabilities ignored, and a run that passed still passes. -/
theorem C26_run (S : Sorter) (env : Env) (f : Flags) (file : Str → ConfigFile) (hm : MoreIgnores env.config file)
    (g : List Str) (hg : f.globalIgnores ⊆ g) :
    let x := run S env f
    let y := run S { env with config := file } { f with globalIgnores := g }
    (shown x.events).length = (shown y.events).length ∧
    (∀ (k : Nat) r r', (shown x.events)[k]? = some r → (shown y.events)[k]? = some r' → Narrower r r') ∧
    (x.exit = 0 → y.exit = 0) := by
  have hfs : FilesSame env.config file := by
    intro p
    rcases hm p with ⟨r, r', h1, h2, h3, _⟩ | ⟨_, h⟩
    · rw [h1, h2]; exact .ok _ _ h3
    · rw [h]; exact .refl _
  intro x y
  simp only [x, y]
  rw [run_shown, run_shown]
  have hprep := prep_same S env file hfs f g
  have hxe : (run S env f).exit = (runBody S env f).exit := rfl
  have hye : (run S { env with config := file } { f with globalIgnores := g }).exit =
    (runBody S { env with config := file } { f with globalIgnores := g }).exit := rfl
  rw [hxe, hye]
  have go1 := runBody_go S env f
  have go2 := runBody_go S { env with config := file } { f with globalIgnores := g }
  have ok1 := prep_cellOK S env f
  have ok2 := prep_cellOK S { env with config := file } { f with globalIgnores := g }
  have e1 := runBody_prep S env f
  have e2 := runBody_prep S { env with config := file } { f with globalIgnores := g }
  have hmono := ignoresFor_mono hm f g hg
  have hj : ({ f with globalIgnores := g } : Flags).listPackages = f.listPackages := rfl
  have hu : ({ f with globalIgnores := g } : Flags).updateConfigIgnores = f.updateConfigIgnores := rfl
  have hupd : ({ env with config := file } : Env).update = env.update := rfl
  have hcfg : ({ env with config := file } : Env).config = file := rfl
  generalize ({ f with globalIgnores := g } : Flags) = f' at *
  generalize ({ env with config := file } : Env) = env' at *
  generalize runPrep S env f = P at *
  generalize runPrep S env' f' = P' at *
  cases hprep with
  | stop a a' he hr =>
    dsimp only at e1 e2
    rw [e1, e2]
    rw [← hr, ← he]
    refine ⟨rfl, ?_, id⟩
    intro k r r' h1 h2
    rw [h1] at h2
    cases h2
    cases r with
    | lockfile l => rfl
    | report r =>
      refine ⟨rfl, rfl, ?_⟩
      intro k p p' h1 h2
      rw [h1] at h2
      cases h2
      exact ⟨rfl, .refl _, .refl _, .refl _⟩
  | go p p' h =>
    obtain ⟨hr, hex, hcells, hp2, hper, hi⟩ := h
    obtain ⟨s1, s2, s3, s4, s5, s6⟩ := go1 p rfl
    obtain ⟨t1, t2, t3, t4, t5, t6⟩ := go2 p' rfl
    have hnar := loopResults_narrower f f' hj p.2.1 p.1.cells p'.1.cells hcells
      (fun k => hmono _ _ (strip_getD_of_map hcells k) (cellOK_getD (ok1 p rfl) k)
        (by rw [← hcfg]; exact cellOK_getD (ok2 p' rfl) k)) 0 p.2.2
    rw [← hp2] at t1 t2 t4 t5 t6
    rw [← s1, ← t1] at hnar
    refine ⟨hnar.1, hnar.2, ?_⟩
    have hany : (runBody S env f).r.sum.any = (runBody S env' f').r.sum.any := by
      have hl : (p.2.2.foldl (loopStep f p.2.1) p.1).r.sum.any = (p.2.2.foldl (loopStep f' p.2.1) p'.1).r.sum.any := by
        rw [s6, t6, hr, loopErr_same f f' hj p.2.1 p.1.cells p'.1.cells hcells]
      rw [s4, t4]
      unfold finish
      rw [hu]
      dsimp only
      cases f.updateConfigIgnores with
      | false => exact hl
      | true =>
        simp only [if_true]
        rw [s5, t5]
        exact (writeUpdated_any_same env env' hupd (hcfg ▸ hfs) _ _ hl _ _
          (loopPer_same f f' hj hu p.2.1 p.1.cells p'.1.cells hcells 0 p.2.2 [] [] .nil)).1
    have hvul : (runBody S env' f').r.sum.shown.any Result.vuln = true →
        (runBody S env f).r.sum.shown.any Result.vuln = true := by
      intro hv
      obtain ⟨r', hr', hrv⟩ := List.any_eq_true.1 hv
      obtain ⟨k, hk, rfl⟩ := List.getElem_of_mem hr'
      have hk2 : k < (runBody S env f).r.sum.shown.length := by omega
      refine List.any_eq_true.2 ⟨_, List.getElem_mem hk2, ?_⟩
      rw [Result.vuln_iff] at hrv ⊢
      exact Narrower.vulnerable (hnar.2 k _ _ (List.getElem?_eq_getElem hk2) (List.getElem?_eq_getElem hk)) hrv
    rw [s3, t3, s2, t2, hr, ← hany]
    revert hvul
    unfold exitOf
    generalize (runBody S env' f').r.sum.shown.any Result.vuln = a
    generalize (runBody S env f).r.sum.shown.any Result.vuln = b
    cases (p'.1.r.sum.hard || p.2.2.any (·.err)) <;> cases (runBody S env f).r.sum.any <;> cases a <;> cases b <;> simp

/-! ### Non-vacuity -/

/-- Ignoring `C` as well turns the failing run of C23 into a passing one. -/
example : (run Sorter.insertion sampleEnv { sampleFlags [g!"d"] with globalIgnores := [g!"C"] }).exit = 0 := by
  decide +kernel
example : MoreIgnores sampleEnv.config (fun p => if p = g!"d/.osv-detector.yml" then .ok { ignore := [g!"B", g!"A"] }
    else .missing) := by
  intro p
  by_cases h : p = g!"d/.osv-detector.yml"
  · subst h
    exact .inl ⟨{ ignore := [g!"A"] }, { ignore := [g!"B", g!"A"] }, rfl, rfl, rfl, by decide⟩
  · exact .inr ⟨by intro r; simp [sampleEnv, h], by simp [sampleEnv, h]⟩

/-- An ignored advisory hides its alias when it comes first (`sampleB` has the alias `A`), also for other databases. -/
example : (transposePkgResults (samplePkg g!"m" g!"Go") [g!"A"] 0 [[[sampleA]], [[sampleB]]]).vulnerabilities = [] ∧
    (transposePkgResults (samplePkg g!"m" g!"Go") [g!"A"] 0 [[[sampleB]], [[sampleA]]]).vulnerabilities = [sampleB] := by
  decide

end Osv
