import Verif.Lemmas.Update
import Verif.Spec.Databases
/-! # Database lists -/
namespace Osv
open Spec

theorem foldl_addDBConfig (cs acc : List DBConfig) :
    cs.foldl addDBConfig acc = acc ++ (firsts cs).filter fun d => !acc.any fun a => decide (a.identifier = d.identifier) := by
  induction cs generalizing acc with
  | nil => simp [firsts]
  | cons c cs ih =>
    rw [List.foldl_cons, ih]
    unfold addDBConfig
    rw [show firsts (c :: cs) = c :: (firsts cs).filter fun d => decide (d.identifier ≠ c.identifier) from rfl]
    cases h : acc.any fun d => decide (d.identifier = c.identifier) with
    | true =>
      simp only [if_true]
      rw [List.filter_cons_of_neg (by simp [h]), List.filter_filter]
      congr 1
      apply List.filter_congr
      intro d _
      by_cases hd : d.identifier = c.identifier
      · simp only [hd, h]; rfl
      · simp [hd]
    | false =>
      simp only [Bool.false_eq_true, if_false]
      rw [List.filter_cons_of_pos (by simp [h]), List.filter_filter, List.append_assoc]
      congr 1
      simp only [List.singleton_append, List.cons.injEq, true_and]
      apply List.filter_congr
      intro d _
      rw [List.any_append]
      by_cases hd : d.identifier = c.identifier
      · simp [hd]
      · simp [hd, Ne.symm hd]

theorem uniqueDBConfigs_eq (configs : List (List DBConfig)) : uniqueDBConfigs configs = firsts configs.flatten := by
  have : ∀ acc, configs.foldl (fun acc c => c.foldl addDBConfig acc) acc = configs.flatten.foldl addDBConfig acc := by
    induction configs with
    | nil => intro acc; rfl
    | cons c cs ih => intro acc; rw [List.foldl_cons, ih, List.flatten_cons, List.foldl_append]
  unfold uniqueDBConfigs
  rw [this, foldl_addDBConfig]
  simp

theorem firsts_sublist (cs : List DBConfig) : (firsts cs).Sublist cs := by
  induction cs with
  | nil => exact .refl _
  | cons c cs ih => exact (List.filter_sublist.trans ih).cons_cons c

theorem firsts_nodup (cs : List DBConfig) : ((firsts cs).map (·.identifier)).Nodup := by
  induction cs with
  | nil => exact List.nodup_nil
  | cons c cs ih =>
    unfold firsts
    rw [List.map_cons, List.nodup_cons]
    refine ⟨?_, (List.filter_sublist.map _).nodup ih⟩
    intro h
    obtain ⟨d, hd, e⟩ := List.mem_map.1 h
    exact (of_decide_eq_true (List.mem_filter.1 hd).2) e

theorem firsts_mem (cs : List DBConfig) (c : DBConfig) (h : c ∈ cs) : ∃ d ∈ firsts cs, d.identifier = c.identifier := by
  induction cs with
  | nil => cases h
  | cons a cs ih =>
    unfold firsts
    by_cases ha : c.identifier = a.identifier
    · exact ⟨a, List.mem_cons_self, ha.symm⟩
    · rcases List.mem_cons.1 h with rfl | h
      · exact absurd rfl ha
      · obtain ⟨d, hd, e⟩ := ih h
        exact ⟨d, List.mem_cons_of_mem _ (List.mem_filter.2 ⟨hd, decide_eq_true (e ▸ ha)⟩), e⟩

/-- The databases that load, in order. -/
theorem loadFold_dbs (env : Env) (f : Flags) (names : List Str) (cs : List DBConfig) (acc : RState × List DB × Bool) :
    (cs.foldl (loadStep env f names) acc).2.1 =
      acc.2.1 ++ cs.filterMap fun c => (env.load c f.offline f.batchSize names).1 := by
  induction cs generalizing acc with
  | nil => simp
  | cons c cs ih =>
    rw [List.foldl_cons, ih, List.filterMap_cons]
    unfold loadStep
    dsimp only
    cases (env.load c f.offline f.batchSize names).1 <;> simp

theorem loadDatabases_dbs (env : Env) (f : Flags) (hl : f.listPackages = false) (r : RState) (cs : List DBConfig)
    (names : List Str) : (loadDatabases env f r cs names).2.1 =
      cs.filterMap fun c => (env.load c f.offline f.batchSize names).1 := by
  unfold loadDatabases
  rw [hl]
  simp only [Bool.false_eq_true, if_false]
  rw [loadFold_dbs]
  rfl

/-- Distinct configs load distinct databases. -/
theorem loaded_nodup (env : Env) (hk : KeepsIdentifier env) (f : Flags) (names : List Str) (cs : List DBConfig)
    (h : (cs.map (·.identifier)).Nodup) :
    ((cs.filterMap fun c => (env.load c f.offline f.batchSize names).1).map (·.identifier)).Nodup := by
  have : ((cs.filterMap fun c => (env.load c f.offline f.batchSize names).1).map (·.identifier)).Sublist
      (cs.map (·.identifier)) := by
    clear h
    induction cs with
    | nil => exact .refl _
    | cons c cs ih =>
      rw [List.filterMap_cons]
      cases hc : (env.load c f.offline f.batchSize names).1 with
      | none => exact ih.trans (List.sublist_cons_self _ _)
      | some db =>
        simp only [List.map_cons]
        rw [hk _ _ _ _ _ hc]
        exact ih.cons_cons _
  exact this.nodup h

theorem forConfigs_filter (dbs : List DB) (cs : List DBConfig) (h : (cs.map (·.identifier)).Nodup) :
    forConfigs dbs cs = dbs.filter fun db => cs.any fun c => decide (c.identifier = db.identifier) := by
  unfold forConfigs
  induction dbs with
  | nil => rfl
  | cons db dbs ih =>
    rw [List.flatMap_cons, ih]
    have key : (cs.filterMap fun c => if c.identifier = db.identifier then some db else none) =
        if (cs.any fun c => decide (c.identifier = db.identifier)) then [db] else [] := by
      clear ih
      induction cs with
      | nil => rfl
      | cons c cs ih =>
        rw [List.map_cons, List.nodup_cons] at h
        rw [List.filterMap_cons, List.any_cons]
        by_cases hc : c.identifier = db.identifier
        · rw [if_pos hc, decide_eq_true hc]
          have : (cs.filterMap fun c => if c.identifier = db.identifier then some db else none) = [] := by
            rw [List.filterMap_eq_nil_iff]
            intro d hd
            rw [if_neg]
            intro e
            exact h.1 (List.mem_map.2 ⟨d, hd, e.trans hc.symm⟩)
          simp [this]
        · rw [if_neg hc, decide_eq_false hc, ih h.2, Bool.false_or]
    rw [key]
    cases hany : cs.any fun c => decide (c.identifier = db.identifier) with
    | true => rw [List.filter_cons_of_pos (by simp [hany])]; rfl
    | false => rw [List.filter_cons_of_neg (by simp [hany])]; rfl

/-! ### The configs of the lockfiles -/

/-- What the loop starts with. -/
theorem prep_read (S : Sorter) (env : Env) (f : Flags) (p : LoopState × List DB × List FileEntry)
    (hp : runPrep S env f = .inr p) :
    p.2.2 = (readOf S env f).files ∧
    p.1.cells = adjustExtraDatabases env f (readOf S env f).files (readOf S env f).cells ∧
    (f.listPackages = false → p.2.1 = (neededConfigs env f (readOf S env f)).filterMap fun c =>
      (env.load c f.offline f.batchSize (allPackageNames env (readOf S env f).files)).1) := by
  unfold runPrep at hp
  unfold readOf
  dsimp only at hp ⊢
  generalize findAllLockfiles env { outputAsJSON := f.json } f.args f.parseAs = found at *
  split at hp
  · cases hp
  split at hp
  · cases hp
  split at hp
  · cases hp
  split at hp
  · cases hp
  rcases hst : startConfig env f found.1 with ⟨r, o⟩
  rw [hst] at hp
  cases o with
  | none => cases hp
  | some cc =>
    obtain ⟨c, cl⟩ := cc
    dsimp only at hp ⊢
    cases hp
    exact ⟨rfl, rfl, fun hl => loadDatabases_dbs env f hl _ _ _⟩

/-- A run that stops early says so. -/
theorem prep_stop (S : Sorter) (env : Env) (f : Flags) (x : Final) (h : runPrep S env f = .inl x) :
    f.printVersion = true ∨ f.listEcosystems = true ∨ x.r.sum.stop = true := by
  have h0 := sum_start f.json
  unfold runPrep at h
  dsimp only at h
  generalize findAllLockfiles env { outputAsJSON := f.json } f.args f.parseAs = found at *
  split at h
  · exact .inl ‹_›
  split at h
  · exact .inr (.inl ‹_›)
  right; right
  split at h
  · cases h
    have := (sum_printParsers (RState.printError { outputAsJSON := f.json } (.badParseAs f.parseAs))).2.2.1
    dsimp only
    rw [this, sum_printError, h0]; rfl
  split at h
  · cases h; simp [Sum.err, ErrMsg.isStop]
  rcases hst : startConfig env f found.1 with ⟨r, o⟩
  rw [hst] at h
  cases o with
  | none =>
    cases h
    unfold startConfig at hst
    split at hst
    · cases hst
    · split at hst
      · split at hst
        · cases hst; simp [Sum.err, ErrMsg.isStop]
        · cases hst
      · cases hst
  | some cc => cases h

/-- A started run reaches the loop. -/
theorem started_go (S : Sorter) (env : Env) (f : Flags) (h : Started f (run S env f).events) :
    ∃ p, runPrep S env f = .inr p := by
  cases hp : runPrep S env f with
  | inr p => exact ⟨p, rfl⟩
  | inl x =>
    obtain ⟨hv, hl, hstop⟩ := h
    rcases prep_stop S env f x hp with h | h | h
    · rw [hv] at h; cases h
    · rw [hl] at h; cases h
    · have hb := runBody_prep S env f
      rw [hp] at hb
      dsimp only at hb
      simp only [run_error_iff, hb] at hstop
      obtain ⟨m, hm, hs⟩ := (any_isErr _ _).1 h
      obtain ⟨h1, h2, h3⟩ := hstop m hm
      cases m with
      | noPaths => exact absurd rfl h1
      | badParseAs n => exact absurd rfl (h2 n)
      | badConfig e => exact absurd rfl (h3 e)
      | _ => cases hs

/-- Invariant of reading the lockfiles. -/
structure ReadInv (own : Bool) (s : ReadState) : Prop where
  cur : s.cur < s.cells.length
  range : ∀ x ∈ s.files, x.config < s.cells.length
  nodup : own = true → ((s.files.filter fun x => !x.err).map (·.config)).Nodup

theorem readInv_step (S : Sorter) (env : Env) (args : List Str) (cl : Bool) (s : ReadState) (p : Str) (own : Bool)
    (hown : own = true → cl = true ∨ (s.cells.getD s.cur {}).filePath ≠ []) (h : ReadInv own s) :
    ReadInv own (readStep S env args cl s p) ∧
    (own = true → cl = true ∨ ((readStep S env args cl s p).cells.getD (readStep S env args cl s p).cur {}).filePath ≠ []) := by
  obtain ⟨h1, h2, h3⟩ := h
  have fresh : ∀ (e : Bool) (lf : Lockfile), own = true →
      (((s.files ++ [(⟨lf, s.cells.length, e⟩ : FileEntry)]).filter fun x => !x.err).map (·.config)).Nodup := by
    intro e lf ho
    rw [List.filter_append, List.map_append]
    cases e with
    | true => simpa using h3 ho
    | false =>
      rw [List.nodup_append]
      refine ⟨h3 ho, by simp, ?_⟩
      intro a ha b hb
      obtain ⟨x, hx, rfl⟩ := List.mem_map.1 ha
      have hlt := h2 x (List.mem_filter.1 hx).1
      have hb' : b = s.cells.length := by simpa using hb
      omega
  have range' : ∀ (e : Bool) (lf : Lockfile) (c : Config), ∀ x ∈ s.files ++ [(⟨lf, s.cells.length, e⟩ : FileEntry)],
      x.config < (s.cells ++ [c]).length := by
    intro e lf c x hx
    rw [List.length_append]
    rcases List.mem_append.1 hx with hx | hx
    · have := h2 x hx; omega
    · rw [List.mem_singleton.1 hx]; simp
  unfold readStep
  dsimp only
  split
  · split
    · refine ⟨⟨h1, ?_, ?_⟩, fun _ => .inl ‹_›⟩
      · intro x hx
        rcases List.mem_append.1 hx with hx | hx
        · exact h2 x hx
        · rw [List.mem_singleton.1 hx]; exact h1
      · intro ho; rw [List.filter_append, List.map_append]; simpa using h3 ho
    · exact ⟨⟨by simp, range' _ _ _, fresh _ _⟩, fun _ => .inl ‹_›⟩
  · split
    · rename_i hfp
      refine ⟨⟨by simp, range' _ _ _, fresh _ _⟩, fun _ => .inr ?_⟩
      simpa using hfp
    · rename_i hcl hfp
      have hno : own = false := by
        cases own with
        | false => rfl
        | true => rcases hown rfl with h | h
                  · exact absurd h hcl
                  · exact absurd h hfp
      subst hno
      refine ⟨⟨h1, ?_, fun h => by cases h⟩, fun h => by cases h⟩
      intro x hx
      rcases List.mem_append.1 hx with hx | hx
      · exact h2 x hx
      · rw [List.mem_singleton.1 hx]; exact h1

theorem readInv_all (S : Sorter) (env : Env) (r : RState) (paths args : List Str) (cl : Bool) (c : Config) (own : Bool)
    (hown : own = true → cl = true ∨ c.filePath ≠ []) : ReadInv own (readAllLockfiles S env r paths args cl c) := by
  unfold readAllLockfiles
  have h0 : ReadInv own ⟨r, [c], 0, []⟩ := ⟨by simp, by simp, by simp⟩
  have h1 : own = true → cl = true ∨ ((⟨r, [c], 0, []⟩ : ReadState).cells.getD (⟨r, [c], 0, []⟩ : ReadState).cur {}).filePath ≠ [] := hown
  generalize (⟨r, [c], 0, []⟩ : ReadState) = s at h0 h1
  induction paths generalizing s with
  | nil => exact h0
  | cons p ps ih =>
    obtain ⟨a, b⟩ := readInv_step S env args cl s p own h1 h0
    exact ih _ a b

/-- Unless configs are disabled, every lockfile that could be read has its own config cell. -/
theorem readInv_readOf (S : Sorter) (env : Env) (f : Flags) (p : LoopState × List DB × List FileEntry)
    (hp : runPrep S env f = .inr p) : ReadInv (!f.noConfig && !f.listPackages) (readOf S env f) := by
  unfold runPrep at hp
  unfold readOf
  dsimp only at hp ⊢
  generalize findAllLockfiles env { outputAsJSON := f.json } f.args f.parseAs = found at *
  split at hp
  · cases hp
  split at hp
  · cases hp
  split at hp
  · cases hp
  split at hp
  · cases hp
  rcases hst : startConfig env f found.1 with ⟨r, o⟩
  rw [hst] at hp
  cases o with
  | none => cases hp
  | some cc =>
    obtain ⟨c, cl⟩ := cc
    dsimp only
    apply readInv_all
    intro ho
    rw [Bool.and_eq_true] at ho
    unfold startConfig at hst
    split at hst
    · rename_i hl; simp [hl] at ho
    · split at hst
      · split at hst
        · cases hst
        · rename_i c' d hlc
          cases hst
          right
          unfold loadConfig at hlc
          split at hlc
          · cases hlc
          · rename_i raw hraw
            have : (newConfig env.validURL (Path.clean f.configPath) raw) = (c, d) := by injection hlc
            have h2 := (newConfig_fields env.validURL raw.databases (⟨Path.clean f.configPath, raw.ignore, []⟩, [])).1
            unfold newConfig at this
            rw [this] at h2
            dsimp only at h2
            rw [h2]
            exact Path.clean_ne_nil _
      · cases hst
        exact .inl ho.1

theorem mem_addEcosystems (l acc : List Ecosystem) (e : Ecosystem) : e ∈ l.foldl addEcosystem acc ↔ e ∈ acc ∨ e ∈ l := by
  induction l generalizing acc with
  | nil => simp
  | cons x l ih =>
    rw [List.foldl_cons, ih]
    unfold addEcosystem
    split
    · rename_i h
      rw [List.contains_iff_mem] at h
      constructor
      · rintro (h | h)
        · exact .inl h
        · exact .inr (by simp [h])
      · rintro (h' | h')
        · exact .inl h'
        · rcases List.mem_cons.1 h' with rfl | h'
          · exact .inl h
          · exact .inr h'
    · simp [or_assoc]

/-- The databases added for a lockfile. -/
def extraConfigs (env : Env) (f : Flags) (x : FileEntry) : List DBConfig :=
  (if f.useAPI then [apiDBConfig] else []) ++
    (if f.useDatabases then ((ecosystemsOf env.iter x.lockf.packages).foldl addEcosystem []).map ecosystemDBConfig else [])

theorem adjustStep_getD (env : Env) (f : Flags) (cells : List Config) (x : FileEntry) (k : Nat) :
    ((adjustStep env f cells x).getD k {}).databases =
      if x.err = false ∧ x.config = k ∧ k < cells.length then
        firsts ((if f.noConfigDatabases then [] else (cells.getD k {}).databases) ++ extraConfigs env f x)
      else (cells.getD k {}).databases := by
  unfold adjustStep
  cases hx : x.err with
  | true => simp
  | false =>
    simp only [Bool.false_eq_true, if_false, true_and]
    rw [getD_set]
    by_cases hk : x.config = k
    · subst hk
      by_cases hlt : x.config < cells.length
      · have hc : x.config = x.config ∧ x.config < cells.length := ⟨rfl, hlt⟩
        rw [if_pos hc, if_pos hc]
        dsimp only
        rw [uniqueDBConfigs_eq]
        simp [extraConfigs, collectEcosystems, hx]
      · have hc : ¬ (x.config = x.config ∧ x.config < cells.length) := by simp [hlt]
        rw [if_neg hc, if_neg hc]
    · have hc : ¬ (x.config = k ∧ x.config < cells.length) := by simp [hk]
      have hc' : ¬ (x.config = k ∧ k < cells.length) := by simp [hk]
      rw [if_neg hc, if_neg hc']

theorem adjustStep_length (env : Env) (f : Flags) (cells : List Config) (x : FileEntry) :
    (adjustStep env f cells x).length = cells.length := by
  unfold adjustStep
  split
  · rfl
  · simp

theorem adjust_length (env : Env) (f : Flags) (files : List FileEntry) (cells : List Config) :
    (adjustExtraDatabases env f files cells).length = cells.length := by
  unfold adjustExtraDatabases
  induction files generalizing cells with
  | nil => rfl
  | cons x xs ih => rw [List.foldl_cons, ih, adjustStep_length]

/-- A cell no lockfile uses is unchanged. -/
theorem adjust_other (env : Env) (f : Flags) (files : List FileEntry) (cells : List Config) (k : Nat)
    (h : ∀ x ∈ files, x.err = false → x.config ≠ k) :
    ((adjustExtraDatabases env f files cells).getD k {}).databases = (cells.getD k {}).databases := by
  unfold adjustExtraDatabases
  induction files generalizing cells with
  | nil => rfl
  | cons x xs ih =>
    rw [List.foldl_cons, ih _ (fun y hy => h y (List.mem_cons_of_mem _ hy)), adjustStep_getD, if_neg]
    rintro ⟨h1, h2, _⟩
    exact h x List.mem_cons_self h1 h2

/-- A lockfile with its own cell gets exactly its databases. -/
theorem adjust_own (env : Env) (f : Flags) (files : List FileEntry) (cells : List Config)
    (hnd : ((files.filter fun x => !x.err).map (·.config)).Nodup) (x : FileEntry) (hx : x ∈ files) (he : x.err = false)
    (hr : x.config < cells.length) :
    ((adjustExtraDatabases env f files cells).getD x.config {}).databases =
      firsts ((if f.noConfigDatabases then [] else (cells.getD x.config {}).databases) ++ extraConfigs env f x) := by
  induction files generalizing cells with
  | nil => cases hx
  | cons y ys ih =>
    have hstep : adjustExtraDatabases env f (y :: ys) cells = adjustExtraDatabases env f ys (adjustStep env f cells y) := rfl
    rw [hstep]
    cases hy : y.err with
    | true =>
      rw [List.filter_cons_of_neg (by simp [hy])] at hnd
      have hxy : x ∈ ys := by
        rcases List.mem_cons.1 hx with rfl | h
        · rw [hy] at he; cases he
        · exact h
      have hs : ((adjustStep env f cells y).getD x.config {}).databases = (cells.getD x.config {}).databases := by
        rw [adjustStep_getD, if_neg (by simp [hy])]
      rw [ih _ hnd hxy (by rw [adjustStep_length]; exact hr), hs]
    | false =>
      rw [List.filter_cons_of_pos (by simp [hy]), List.map_cons, List.nodup_cons] at hnd
      rcases List.mem_cons.1 hx with rfl | hxy
      · rw [adjust_other, adjustStep_getD, if_pos ⟨he, rfl, hr⟩]
        intro z hz hze hc
        exact hnd.1 (List.mem_map.2 ⟨z, List.mem_filter.2 ⟨hz, by simp [hze]⟩, hc⟩)
      · have hne : y.config ≠ x.config := fun hc =>
          hnd.1 (List.mem_map.2 ⟨x, List.mem_filter.2 ⟨hxy, by simp [he]⟩, hc.symm⟩)
        have hs : ((adjustStep env f cells y).getD x.config {}).databases = (cells.getD x.config {}).databases := by
          rw [adjustStep_getD, if_neg (by simp [hne])]
        rw [ih _ hnd.2 hxy (by rw [adjustStep_length]; exact hr), hs]

/-- With config databases kept, no identifier is ever lost. -/
theorem adjust_keeps (env : Env) (f : Flags) (hn : f.noConfigDatabases = false) (files : List FileEntry)
    (cells : List Config) (k : Nat) (c : DBConfig) (hc : c ∈ (cells.getD k {}).databases) :
    ∃ d ∈ ((adjustExtraDatabases env f files cells).getD k {}).databases, d.identifier = c.identifier := by
  induction files generalizing cells c with
  | nil => exact ⟨c, hc, rfl⟩
  | cons y ys ih =>
    have hstep : adjustExtraDatabases env f (y :: ys) cells = adjustExtraDatabases env f ys (adjustStep env f cells y) := rfl
    rw [hstep]
    have : ∃ d ∈ ((adjustStep env f cells y).getD k {}).databases, d.identifier = c.identifier := by
      rw [adjustStep_getD]
      split
      · rw [hn]
        exact firsts_mem _ _ (List.mem_append.2 (.inl (by simpa using hc)))
      · exact ⟨c, hc, rfl⟩
    obtain ⟨d, hd, e⟩ := this
    obtain ⟨d', hd', e'⟩ := ih _ d hd
    exact ⟨d', hd', e'.trans e⟩

/-- With config databases kept, every lockfile gets at least its databases. -/
theorem adjust_adds (env : Env) (f : Flags) (hn : f.noConfigDatabases = false) (files : List FileEntry)
    (cells : List Config) (x : FileEntry) (hx : x ∈ files) (he : x.err = false) (hr : x.config < cells.length)
    (c : DBConfig) (hc : c ∈ (cells.getD x.config {}).databases ++ extraConfigs env f x) :
    ∃ d ∈ ((adjustExtraDatabases env f files cells).getD x.config {}).databases, d.identifier = c.identifier := by
  induction files generalizing cells c with
  | nil => cases hx
  | cons y ys ih =>
    have hstep : adjustExtraDatabases env f (y :: ys) cells = adjustExtraDatabases env f ys (adjustStep env f cells y) := rfl
    rcases List.mem_append.1 hc with hc1 | hc1
    · exact adjust_keeps env f hn _ _ _ _ hc1
    · rw [hstep]
      rcases List.mem_cons.1 hx with rfl | hxy
      · have : ∃ d ∈ ((adjustStep env f cells x).getD x.config {}).databases, d.identifier = c.identifier := by
          rw [adjustStep_getD, if_pos ⟨he, rfl, hr⟩, hn]
          exact firsts_mem _ _ (List.mem_append.2 (.inr hc1))
        obtain ⟨d, hd, e⟩ := this
        obtain ⟨d', hd', e'⟩ := adjust_keeps env f hn ys _ _ _ hd
        exact ⟨d', hd', e'.trans e⟩
      · exact ih _ hxy (by rw [adjustStep_length]; exact hr) c (List.mem_append.2 (.inr hc1))

/-- Every lockfile ends up with databases of distinct identifiers. -/
theorem adjust_nodup (env : Env) (f : Flags) (files : List FileEntry) (cells : List Config) (k : Nat)
    (h : ((cells.getD k {}).databases.map (·.identifier)).Nodup ∨ (k < cells.length ∧ ∃ x ∈ files, x.err = false ∧ x.config = k)) :
    (((adjustExtraDatabases env f files cells).getD k {}).databases.map (·.identifier)).Nodup := by
  induction files generalizing cells with
  | nil =>
    rcases h with h | ⟨_, x, hx, _⟩
    · exact h
    · cases hx
  | cons y ys ih =>
    have hstep : adjustExtraDatabases env f (y :: ys) cells = adjustExtraDatabases env f ys (adjustStep env f cells y) := rfl
    rw [hstep]
    apply ih
    rw [adjustStep_getD, adjustStep_length]
    split
    · exact .inl (firsts_nodup _)
    · rename_i hn
      rcases h with h | ⟨hlt, x, hx, he, hk⟩
      · exact .inl h
      · rcases List.mem_cons.1 hx with rfl | hx
        · exact absurd ⟨he, hk, hlt⟩ hn
        · exact .inr ⟨hlt, x, hx, he, hk⟩

/-- The result of a readable lockfile is shown. -/
theorem loopResults_mem (f : Flags) (hl : f.listPackages = false) (dbs : List DB) (cells : List Config) (i j : Nat)
    (files : List FileEntry) (x : FileEntry) (h : files[i]? = some x) (he : x.err = false) :
    .report (reportOf f dbs (cells.getD x.config {}) (j + i) x.lockf) ∈ loopResults f dbs cells j files := by
  induction files generalizing i j with
  | nil => cases h
  | cons y ys ih =>
    rw [loopResults_cons]
    cases i with
    | zero =>
      simp only [List.getElem?_cons_zero, Option.some.injEq] at h
      subst h
      simp [resultOf, he, hl]
    | succ i =>
      simp only [List.getElem?_cons_succ] at h
      have := ih i (j + 1) h
      rw [show j + (i + 1) = j + 1 + i by omega]
      exact List.mem_append.2 (.inr this)

theorem mem_ecosystemsOf (iter : List Str → List Str) (hiter : ∀ l, (iter l).Perm l) (ps : List PackageDetails) (e : Str) :
    e ∈ ecosystemsOf iter ps ↔ e ≠ [] ∧ ∃ p ∈ ps, p.ecosystem = e := by
  unfold ecosystemsOf
  rw [mem_sortStr, List.mem_filter, (hiter _).mem_iff, mem_dedupStr, List.mem_map, decide_eq_true_eq]
  exact and_comm

end Osv
