import Verif.Spec.Ignores
import Verif.Lemmas.Cells
import Verif.Lemmas.Databases
import Verif.Lemmas.Discovery
import Verif.Props.C35
/-! The config that is used for each lockfile. -/
namespace Osv
open Spec

theorem parseLockfile_path (S : Sorter) (env : Env) (p : Str) (args : List Str) (h : (parseLockfile S env p args).2 = false) :
    (parseLockfile S env p args).1.filePath = (splitParseAs p).2 := by
  unfold parseLockfile at *
  dsimp only at *
  split at h
  · rename_i h1; rw [if_pos h1]
  · rename_i h1
    rw [if_neg h1]
    split at h
    · rename_i h2
      rw [if_pos h2]
      split at h
      · cases h
      · rfl
    · rename_i h2
      rw [if_neg h2]
      unfold parseWith at *
      cases hf : findParser (splitParseAs p).2 (splitParseAs p).1 with
      | none => rw [hf] at h; cases h
      | some n => rfl

/-- Invariant of reading the lockfiles: the config of each. -/
structure OwnInv (env : Env) (cl : Bool) (c0 : Config) (s : ReadState) : Prop where
  cur : s.cur < s.cells.length
  start : cl = false → s.cells.getD s.cur {} = c0
  range : ∀ x ∈ s.files, x.config < s.cells.length
  own : ∀ x ∈ s.files, x.err = false →
    if cl then ∃ d, findConfig env.validURL env.config (Path.dir x.lockf.filePath) = .ok (s.cells.getD x.config {}, d)
    else s.cells.getD x.config {} = c0

theorem getD_append_lt {cells : List Config} {c : Config} {k : Nat} (h : k < cells.length) :
    (cells ++ [c]).getD k {} = cells.getD k {} := by
  rw [List.getD_eq_getElem?_getD, List.getD_eq_getElem?_getD, List.getElem?_append_left h]

theorem getD_append_self (cells : List Config) (c : Config) : (cells ++ [c]).getD cells.length {} = c := by
  simp

theorem ownInv_step (S : Sorter) (env : Env) (args : List Str) (cl : Bool) (c0 : Config) (s : ReadState) (p : Str)
    (h : OwnInv env cl c0 s) : OwnInv env cl c0 (readStep S env args cl s p) := by
  obtain ⟨h1, h2, h3, h4⟩ := h
  have range' : ∀ (e : Bool) (lf : Lockfile) (c : Config), ∀ x ∈ s.files ++ [(⟨lf, s.cells.length, e⟩ : FileEntry)],
      x.config < (s.cells ++ [c]).length := by
    intro e lf c x hx
    rw [List.length_append]
    rcases List.mem_append.1 hx with hx | hx
    · have := h3 x hx; omega
    · rw [List.mem_singleton.1 hx]; simp
  unfold readStep
  dsimp only
  split
  · rename_i hcl
    subst hcl
    split
    · refine ⟨h1, nofun, ?_, ?_⟩
      · intro x hx
        rcases List.mem_append.1 hx with hx | hx
        · exact h3 x hx
        · rw [List.mem_singleton.1 hx]; exact h1
      · intro x hx he
        rcases List.mem_append.1 hx with hx | hx
        · exact h4 x hx he
        · rw [List.mem_singleton.1 hx] at he; cases he
    · rename_i con d hf
      refine ⟨by simp, nofun, range' _ _ _, ?_⟩
      intro x hx he
      rcases List.mem_append.1 hx with hx | hx
      · rw [getD_append_lt (h3 x hx)]; exact h4 x hx he
      · rw [List.mem_singleton.1 hx] at he ⊢
        dsimp only at he ⊢
        rw [getD_append_self, parseLockfile_path S env p args he]
        exact ⟨d, hf⟩
  · rename_i hcl
    have hcl : cl = false := by simpa using hcl
    subst hcl
    split
    · refine ⟨by simp, fun _ => by rw [getD_append_self]; exact h2 rfl, range' _ _ _, ?_⟩
      intro x hx he
      rcases List.mem_append.1 hx with hx | hx
      · rw [getD_append_lt (h3 x hx)]; exact h4 x hx he
      · rw [List.mem_singleton.1 hx]
        show (s.cells ++ [s.cells.getD s.cur {}]).getD s.cells.length {} = c0
        rw [getD_append_self]; exact h2 rfl
    · refine ⟨h1, h2, ?_, ?_⟩
      · intro x hx
        rcases List.mem_append.1 hx with hx | hx
        · exact h3 x hx
        · rw [List.mem_singleton.1 hx]; exact h1
      · intro x hx he
        rcases List.mem_append.1 hx with hx | hx
        · exact h4 x hx he
        · rw [List.mem_singleton.1 hx]; exact h2 rfl

theorem ownInv_all (S : Sorter) (env : Env) (r : RState) (paths args : List Str) (cl : Bool) (c : Config) :
    OwnInv env cl c (readAllLockfiles S env r paths args cl c) := by
  unfold readAllLockfiles
  have h0 : OwnInv env cl c ⟨r, [c], 0, []⟩ := ⟨by simp, fun _ => rfl, nofun, nofun⟩
  generalize (⟨r, [c], 0, []⟩ : ReadState) = s at h0
  induction paths generalizing s with
  | nil => exact h0
  | cons p ps ih => exact ih _ (ownInv_step S env args cl c s p h0)

theorem configFor_enabled {env : Env} {f : Flags} {q p : Str} {r : RawConfig} (h : ConfigFor env f q p r) : f.noConfig = false := by
  cases h <;> assumption

/-- The config of a lockfile is that of the file that applies to it. -/
theorem cell_config (S : Sorter) (env : Env) (f : Flags) (hl : f.listPackages = false) (p : LoopState × List DB × List FileEntry)
    (hp : runPrep S env f = .inr p) (x : FileEntry) (hx : x ∈ (readOf S env f).files) (he : x.err = false) :
    (∃ path raw, ConfigFor env f x.lockf.filePath path raw ∧
      (readOf S env f).cells.getD x.config {} = (newConfig env.validURL path raw).1) ∨
    ((∀ path raw, ¬ ConfigFor env f x.lockf.filePath path raw) ∧ (readOf S env f).cells.getD x.config {} = {}) := by
  unfold runPrep at hp
  unfold readOf at *
  dsimp only at hp hx ⊢
  generalize findAllLockfiles env { outputAsJSON := f.json } f.args f.parseAs = found at *
  split at hp
  · cases hp
  split at hp
  · cases hp
  split at hp
  · cases hp
  split at hp
  · cases hp
  rcases hst : startConfig env f found.1 with ⟨r, o⟩
  rw [hst] at hp hx
  cases o with
  | none => cases hp
  | some cc =>
    obtain ⟨c, cl⟩ := cc
    dsimp only at hx ⊢
    have hinv := (ownInv_all S env r found.2.1 f.args cl c).own x hx he
    generalize (readAllLockfiles S env r found.2.1 f.args cl c).cells.getD x.config {} = cell at hinv
    unfold startConfig at hst
    rw [hl] at hst
    simp only [Bool.false_eq_true, if_false] at hst
    split at hst
    · rename_i hn
      simp only [Bool.and_eq_true, Bool.not_eq_true', decide_eq_true_eq] at hn
      rw [loadConfig_eq] at hst
      cases hc : env.config (Path.clean f.configPath) with
      | ok raw =>
        rw [hc] at hst
        cases hst
        exact .inl ⟨_, raw, .explicit raw hn.1 hn.2 hc, hinv⟩
      | _ => rw [hc] at hst; cases hst
    · rename_i hn
      cases hst
      cases hnc : f.noConfig with
      | true =>
        rw [hnc] at hinv
        refine .inr ⟨?_, hinv⟩
        intro path raw h
        have := configFor_enabled h
        rw [hnc] at this; cases this
      | false =>
        rw [hnc] at hinv hn
        have hcp : f.configPath = [] := by simpa using hn
        obtain ⟨d, hf⟩ := hinv
        obtain ⟨p1, p2, p3, p4⟩ := C35_precedence env.validURL env.config (Path.dir x.lockf.filePath)
        have bad : ∀ {P : Prop}, BrokenConfig env.config (Path.dir x.lockf.filePath) → P := by
          intro P hb
          obtain ⟨e, he⟩ := p4.2 hb
          rw [he] at hf; cases hf
        cases hy : env.config (ymlPath (Path.dir x.lockf.filePath)) with
        | ok raw =>
          rw [p1 raw hy] at hf
          injection hf with hf
          exact .inl ⟨_, raw, .yml raw hnc hcp hy, by rw [hf]⟩
        | unreadable => exact bad (.inl (.inl hy))
        | malformed => exact bad (.inl (.inr hy))
        | missing =>
          cases hy' : env.config (yamlPath (Path.dir x.lockf.filePath)) with
          | ok raw =>
            rw [p2 raw hy hy'] at hf
            injection hf with hf
            exact .inl ⟨_, raw, .yaml raw hnc hcp hy hy', by rw [hf]⟩
          | unreadable => exact bad (.inr ⟨hy, .inl hy'⟩)
          | malformed => exact bad (.inr ⟨hy, .inr hy'⟩)
          | missing =>
            rw [p3 hy hy'] at hf
            injection hf with hf
            refine .inr ⟨?_, ((Prod.mk.inj hf).1).symm⟩
            intro path raw h
            cases h with
            | explicit _ _ hg _ => exact hg hcp
            | yml _ _ _ h => rw [hy] at h; cases h
            | yaml _ _ _ _ h => rw [hy'] at h; cases h

/-- At most one config file applies. -/
theorem configFor_unique {env : Env} {f : Flags} {q p p' : Str} {r r' : RawConfig} (h : ConfigFor env f q p r)
    (h' : ConfigFor env f q p' r') : p = p' ∧ r = r' := by
  cases h with
  | explicit _ _ h2 h3 =>
    cases h' with
    | explicit _ _ _ h3' => rw [h3] at h3'; cases h3'; exact ⟨rfl, rfl⟩
    | yml _ _ h2' _ => exact absurd h2' h2
    | yaml _ _ h2' _ _ => exact absurd h2' h2
  | yml _ _ h2 h3 =>
    cases h' with
    | explicit _ _ h2' _ => exact absurd h2 h2'
    | yml _ _ _ h3' => rw [h3] at h3'; cases h3'; exact ⟨rfl, rfl⟩
    | yaml _ _ _ h3' _ => rw [h3] at h3'; cases h3'
  | yaml _ _ h2 h3 h4 =>
    cases h' with
    | explicit _ _ h2' _ => exact absurd h2 h2'
    | yml _ _ _ h3' => rw [h3] at h3'; cases h3'
    | yaml _ _ _ _ h4' => rw [h4] at h4'; cases h4'; exact ⟨rfl, rfl⟩

theorem configFor_path {env : Env} {f : Flags} {q p : Str} {r : RawConfig} (h : ConfigFor env f q p r) : p ≠ [] := by
  cases h <;> exact Path.clean_ne_nil _

/-- The ignored IDs are exactly the excused ones. -/
theorem mem_ignores (S : Sorter) (env : Env) (f : Flags) (hl : f.listPackages = false) (p : LoopState × List DB × List FileEntry)
    (hp : runPrep S env f = .inr p) (x : FileEntry) (hx : x ∈ (readOf S env f).files) (he : x.err = false) (id : Str) :
    id ∈ ignoresFor f ((readOf S env f).cells.getD x.config {}) ↔ Excused env f x.lockf.filePath id := by
  unfold ignoresFor Excused
  rw [List.mem_append, or_comm]
  refine or_congr Iff.rfl ?_
  rcases cell_config S env f hl p hp x hx he with ⟨path, raw, hc, hcell⟩ | ⟨hno, hcell⟩
  · rw [hcell]
    unfold newConfig
    rw [(newConfig_fields _ _ _).1, (newConfig_fields _ _ _).2]
    dsimp only
    cases hn : f.noConfigIgnores with
    | true => simp
    | false =>
      simp only [ne_eq, configFor_path hc, not_false_eq_true, Bool.not_false, and_self, if_true, true_and]
      constructor
      · intro h; exact ⟨path, raw, hc, h⟩
      · rintro ⟨path', raw', hc', h⟩
        rw [(configFor_unique hc hc').2]; exact h
  · rw [hcell]
    simp [hno]

end Osv
