import Verif.Lemmas.Crash
import Verif.Lemmas.Dedup
import Verif.Props.C38
import Verif.Spec.Rerun
/-! # Running the command again: lemmas -/
namespace Osv.Rerun
open Spec

theorem foldlM_congr {σ α ε : Type} (g h : σ → α → Except ε σ) (l : List α) (s : σ) (hc : ∀ a ∈ l, ∀ s, g s a = h s a) :
    l.foldlM g s = l.foldlM h s := by
  induction l generalizing s with
  | nil => rfl
  | cons a l ih =>
    rw [List.foldlM_cons, List.foldlM_cons, hc a (by simp)]
    congr 1
    funext s'
    exact ih s' fun b hb => hc b (List.mem_cons_of_mem _ hb)

theorem found (env env' : Env) (h : env'.path = env.path) (r : RState) (args : List Str) (g : Str) :
    findAllLockfiles env' r args g = findAllLockfiles env r args g := by
  have h1 : findLockfiles env' = findLockfiles env := by funext a b; unfold findLockfiles; rw [h]
  have h2 : findStep env' = findStep env := by funext a b c; unfold findStep; rw [h1]
  unfold findAllLockfiles
  rw [h2]

theorem start (env env' : Env) (h : env'.config = env.config) (hv : env'.validURL = env.validURL) (f : Flags) (r : RState) :
    startConfig env' f r = startConfig env f r := by
  unfold startConfig; rw [h, hv]

theorem ecosystems (iter iter' : List Str → List Str) (h : ∀ l, (iter l).Perm l) (h' : ∀ l, (iter' l).Perm l) :
    ecosystemsOf iter' = ecosystemsOf iter := by
  funext ps
  unfold ecosystemsOf
  exact sortStr_eq_of_perm (((h' _).trans (h _).symm).filter _)

/-- The same lockfile from a path that is parsed. -/
theorem parsed {S : Sorter} {env env' : Env} {f : Flags} (h : Rerun env env' f)
    (ht : ∀ want q, IsParsed env f want q → NoTies (env.parse (parserOf want q) q).1) (hb : badParseAs f = false)
    (r0 r : RState) (p : Str) (hp : p ∈ (findAllLockfiles env r0 f.args f.parseAs).2.1)
    (hc : LocalConfigs f → ∃ c, findConfig env.validURL env.config (Path.dir (splitParseAs p).2) = .ok c) :
    parseLockfileP S env' r p f.args = parseLockfileP S env r p f.args := by
  by_cases hg : f.parseAs = csvRowName
  · rw [findAll_paths, if_pos hg, List.mem_singleton] at hp
    subst hp
    unfold parseLockfileP parseLockfile calledParser
    rw [show csvRowName ++ g!":-" = csvRowName ++ ':' :: g!"-" from rfl, splitParseAs_colon _ _ (by decide), h.csvRows]
    rfl
  · obtain ⟨want, q, rfl, hd⟩ := (mem_found _ _ _ _ hg _).1 hp
    have hw := discovers_colon (badParseAs_false f hb) hd
    unfold parseLockfileP parseLockfile calledParser
    rw [splitParseAs_colon _ _ hw] at *
    dsimp only at hc ⊢
    by_cases h1 : want = csvRowName
    · simp only [h1, if_true, true_or, Option.any_none, h.csvRows]
    by_cases h2 : want = csvFileName
    · have hne : csvFileName ≠ csvRowName := by decide
      simp only [h2, hne, or_true, if_true, if_false, Option.any_none, h.csvFile]
    · simp only [h1, h2, if_false, or_self]
      unfold parseWith
      rw [findParser_eq]
      by_cases h3 : parserOf want q ∈ parserNames
      · rw [if_pos h3]
        have hi : IsParsed env f want q := ⟨hg, hd, h1, h2, h3, hc⟩
        obtain ⟨e1, e2, e3⟩ := h.parse want q hi
        simp only [Option.map_some, Option.any_some, e2, e3]
        rw [C38_deterministic S S _ _ e1.symm (ht want q hi)]
      · rw [if_neg h3]
        rfl

theorem read {S : Sorter} {env env' : Env} {f : Flags} (h : Rerun env env' f)
    (ht : ∀ want q, IsParsed env f want q → NoTies (env.parse (parserOf want q) q).1) (hb : badParseAs f = false)
    (r0 r : RState) (cl : Bool) (hcl : LocalConfigs f → cl = true) (config : Config) :
    readAllLockfilesP S env' r (findAllLockfiles env r0 f.args f.parseAs).2.1 f.args cl config =
    readAllLockfilesP S env r (findAllLockfiles env r0 f.args f.parseAs).2.1 f.args cl config := by
  unfold readAllLockfilesP
  apply foldlM_congr
  intro p hp s
  have key := fun r => parsed (S := S) h ht hb r0 r p hp
  unfold readStepP
  dsimp only
  rw [h.config, h.validURL]
  cases cl with
  | false =>
    have hk := fun r => key r fun hl => by have := hcl hl; cases this
    simp only [Bool.false_eq_true, if_false, hk]
  | true =>
    simp only [if_true]
    generalize hfc : findConfig env.validURL env.config (Path.dir (splitParseAs p).2) = fc at *
    cases fc with
    | error _ => rfl
    | ok v => simp only [key _ fun _ => ⟨v, rfl⟩]

theorem names (env env' : Env) (h : ∀ l, (env.iter l).Perm l) (h' : ∀ l, (env'.iter l).Perm l) (files : List FileEntry) :
    SameMembers (allPackageNames env files) (allPackageNames env' files) := by
  intro n
  unfold allPackageNames
  rw [(h _).mem_iff, (h' _).mem_iff]

theorem prep {S : Sorter} {env env' : Env} {f : Flags} (h : Rerun env env' f)
    (ht : ∀ want q, IsParsed env f want q → NoTies (env.parse (parserOf want q) q).1) (hb : badParseAs f = false)
    (r0 r : RState) (cl : Bool) (hcl : LocalConfigs f → cl = true) (config : Config) :
    prepareP S env' f r (findAllLockfiles env r0 f.args f.parseAs).2.1 config cl =
    prepareP S env f r (findAllLockfiles env r0 f.args f.parseAs).2.1 config cl := by
  unfold prepareP
  rw [read h ht hb r0 r cl hcl config]
  congr 1
  funext rs
  have h1 : collectEcosystems env' = collectEcosystems env := by
    funext fs; unfold collectEcosystems; rw [ecosystems _ _ h.iter h.iter']
  have h2 : adjustStep env' = adjustStep env := by funext f a b; unfold adjustStep; rw [h1]
  have h3 : adjustExtraDatabases env' = adjustExtraDatabases env := by funext f a b; unfold adjustExtraDatabases; rw [h2]
  rw [h3]
  have hl : loadStepP env' f (allPackageNames env' rs.files) = loadStepP env f (allPackageNames env rs.files) := by
    funext acc c
    obtain ⟨e1, e2⟩ := h.load c _ _ (names env env' h.iter h.iter' rs.files)
    unfold loadStepP loadStep
    rw [e1, e2]
  unfold loadDatabasesP
  rw [hl]

theorem done {env env' : Env} {f : Flags} (h : Rerun env env' f) : finish env' f = finish env f := by
  funext s
  unfold finish writeUpdatedConfigs
  rw [h.config, h.update]

theorem body {S : Sorter} {env env' : Env} {f : Flags} (h : Rerun env env' f)
    (ht : ∀ want q, IsParsed env f want q → NoTies (env.parse (parserOf want q) q).1) : runBodyP S env' f = runBodyP S env f := by
  unfold runBodyP
  dsimp only
  rw [h.config, found env env' h.path]
  split
  · rfl
  split
  · rfl
  split
  · rfl
  rename_i hb
  split
  · rfl
  rw [start env env' h.config h.validURL, done h]
  split
  · rfl
  · rename_i r config cl hs
    rw [prep h ht (by simpa using hb)]
    intro hl
    unfold startConfig at hs
    rw [hl.1, hl.2.1, hl.2.2] at hs
    simp at hs
    exact hs.2.2.symm ▸ rfl

end Osv.Rerun
