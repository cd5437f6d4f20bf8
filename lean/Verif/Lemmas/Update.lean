import Verif.Lemmas.Cells
import Verif.Lemmas.Path
import Verif.Lemmas.Dedup
/-! # Rewriting the config files -/
namespace Osv
open Spec

theorem uniqueVulns_self (vs : List OSV) (hvs : vs.Pairwise (fun a b => ¬ Related a b)) : uniqueVulns vs = vs := by
  have : ∀ (acc vs : List OSV), (acc ++ vs).Pairwise (fun a b => ¬ Related a b) →
      vs.foldl (fun acc v => if includesVuln acc v then acc else acc ++ [v]) acc = acc ++ vs := by
    intro acc vs
    induction vs generalizing acc with
    | nil => intro _; simp
    | cons v vs ih =>
      intro h
      have hn : includesVuln acc v = false := by
        cases hc : includesVuln acc v with
        | false => rfl
        | true =>
          obtain ⟨o, ho, hr⟩ := (includesVuln_iff _ _).1 hc
          exact absurd hr ((List.pairwise_append.1 h).2.2 o ho v (by simp))
      rw [List.foldl_cons, hn]
      simp only [Bool.false_eq_true, if_false]
      rw [ih (acc ++ [v]) (by simpa using h)]
      simp
  simpa [uniqueVulns] using this [] vs (by simpa using hvs)

/-- The IDs collected from a report are those it mentions. -/
theorem reportIds_eq (f : Flags) (dbs : List DB) (c : Config) (i : Nat) (l : Lockfile) :
    reportIds (reportOf f dbs c i l) = idsOf (.report (reportOf f dbs c i l)) := by
  unfold reportIds idsOf
  dsimp only
  rw [List.flatMap_def, List.flatMap_def]
  congr 1
  apply List.map_congr_left
  intro p hp
  unfold reportOf at hp
  obtain ⟨k, hk, rfl⟩ := List.mem_mapIdx.1 hp
  rw [transpose_eq]
  have hu := (uniqueVulns_spec (returned k ((forConfigs dbs c.databases).filterMap fun db => db.answer i l.packages))).2.1
  rw [uniqueVulns_self _ (hu.sublist List.filter_sublist), uniqueVulns_self _ (hu.sublist List.filter_sublist)]
  simp

/-- The config paths of the lockfiles that could be read, in order. -/
def usedPaths (cells : List Config) (files : List FileEntry) : List Str :=
  (files.filter fun x => !x.err).map fun x => (cells.getD x.config {}).filePath

/-- The config paths used in a run, for each lockfile that could be read. -/
def configsUsed (S : Sorter) (env : Env) (f : Flags) : List Str :=
  match runPrep S env f with
  | .inl _ => []
  | .inr p => usedPaths p.1.cells p.2.2

/-- Contribution of a result to the IDs of a config. -/
def addIds (per : SMap (List Str)) (e : Str × Result) : SMap (List Str) :=
  if e.1 = [] then per else per.set e.1 ((per.get? e.1).getD [] ++ idsOf e.2)

theorem usedPaths_cons (cells : List Config) (x : FileEntry) (xs : List FileEntry) :
    usedPaths cells (x :: xs) = if x.err then usedPaths cells xs
      else (cells.getD x.config {}).filePath :: usedPaths cells xs := by
  unfold usedPaths
  cases hx : x.err
  · rw [List.filter_cons_of_pos (by simp [hx])]; rfl
  · rw [List.filter_cons_of_neg (by simp [hx])]; rfl

theorem loopResults_cons (f : Flags) (dbs : List DB) (cells : List Config) (i : Nat) (x : FileEntry)
    (xs : List FileEntry) : loopResults f dbs cells i (x :: xs) =
      (resultOf f dbs cells i x).toList ++ loopResults f dbs cells (i + 1) xs := rfl

theorem loopPer_eq (f : Flags) (hl : f.listPackages = false) (hu : f.updateConfigIgnores = true) (dbs : List DB)
    (cells : List Config) (i : Nat) (per : SMap (List Str)) (files : List FileEntry) :
    loopPer f dbs cells i per files =
      ((usedPaths cells files).zip (loopResults f dbs cells i files)).foldl addIds per := by
  induction files generalizing i per with
  | nil => rfl
  | cons x xs ih =>
    unfold loopPer
    rw [ih, usedPaths_cons, loopResults_cons]
    unfold resultOf perStep
    cases hx : x.err with
    | true => simp
    | false =>
      simp only [Bool.false_eq_true, if_false, hl, Option.toList_some, List.singleton_append,
        List.zip_cons_cons, List.foldl_cons, hu, true_and, ne_eq, ite_not]
      congr 1
      unfold addIds
      dsimp only
      rw [reportIds_eq]

theorem addIds_get (l : List (Str × Result)) (per : SMap (List Str)) (q : Str) (hq : q ≠ []) :
    (l.foldl addIds per).get? q =
      if (l.any fun e => decide (e.1 = q)) = true ∨ (per.get? q).isSome = true then
        some ((per.get? q).getD [] ++ (l.filter fun e => decide (e.1 = q)).flatMap fun e => idsOf e.2)
      else none := by
  induction l generalizing per with
  | nil => cases h : per.get? q <;> simp [h]
  | cons e l ih =>
    rw [List.foldl_cons, ih]
    unfold addIds
    by_cases he : e.1 = []
    · rw [if_pos he]
      have hne : e.1 ≠ q := by rw [he]; exact Ne.symm hq
      rw [List.filter_cons_of_neg (by simpa using hne), List.any_cons, decide_eq_false hne, Bool.false_or]
    · rw [if_neg he]
      by_cases hq' : e.1 = q
      · subst hq'
        rw [SMap.get?_set_self, if_pos (.inr rfl), if_pos (.inl (by simp)), List.filter_cons_of_pos (by simp)]
        simp
      · rw [SMap.get?_set_ne _ _ _ _ (Ne.symm hq'), List.filter_cons_of_neg (by simpa using hq'), List.any_cons,
          decide_eq_false hq', Bool.false_or]

theorem addIds_nodup (l : List (Str × Result)) (per : SMap (List Str)) (h : (per.map (·.1)).Nodup) :
    ((l.foldl addIds per).map (·.1)).Nodup := by
  induction l generalizing per with
  | nil => exact h
  | cons e l ih =>
    rw [List.foldl_cons]
    apply ih
    unfold addIds
    split
    · exact h
    · exact SMap.nodup_set _ _ _ h

theorem addIds_keys (l : List (Str × Result)) (per : SMap (List Str)) (h : [] ∉ per.map (·.1)) :
    [] ∉ (l.foldl addIds per).map (·.1) := by
  induction l generalizing per with
  | nil => exact h
  | cons e l ih =>
    rw [List.foldl_cons]
    apply ih
    unfold addIds
    split
    · exact h
    · rename_i he
      rw [SMap.keys_set]
      split
      · exact h
      · intro hm
        rcases List.mem_append.1 hm with hm | hm
        · exact h hm
        · exact he (List.mem_singleton.1 hm).symm

/-- The config files after rewriting, when nothing fails. -/
theorem writeUpdated_config (env : Env) (r : RState) (per : SMap (List Str)) (hnd : (per.map (·.1)).Nodup)
    (hk : ∀ k ∈ per.map (·.1), Path.clean k = k ∧ ∃ raw, env.config k = .ok raw)
    (hup : ∀ p, env.update p = .complete) (q : Str) :
    (writeUpdatedConfigs env r per).2 q =
      match per.get? q, env.config q with
      | some ids, .ok raw => .ok { raw with ignore := newIgnores ids }
      | _, c => c := by
  unfold writeUpdatedConfigs
  dsimp only
  generalize (if per.length ≠ 0 then r.printText .blank else r) = r0
  generalize env.config = file at *
  induction per generalizing r0 file with
  | nil => rfl
  | cons e per ih =>
    obtain ⟨k, ids⟩ := e
    rw [List.map_cons, List.nodup_cons] at hnd
    obtain ⟨hkc, raw, hraw⟩ := hk k (by simp)
    have hupd : updateWithIgnores file k (newIgnores ids) (env.update k) =
        (fun q => if q = k then .ok { raw with ignore := newIgnores ids } else file q, true) := by
      unfold updateWithIgnores loadRaw
      dsimp only
      rw [hkc, hraw, hup]
    rw [List.foldl_cons]
    dsimp only
    rw [hupd]
    dsimp only
    rw [if_pos rfl, ih hnd.2 (r0.printText (.updated k (newIgnores ids).length))]
    · unfold SMap.get?
      rw [List.lookup_cons]
      by_cases hq : q = k
      · subst hq
        have : per.lookup q = none := by
          rw [List.lookup_eq_none_iff]
          intro p hp
          have : q ≠ p.1 := by rintro rfl; exact hnd.1 (List.mem_map.2 ⟨p, hp, rfl⟩)
          simp [this]
        simp [this, hraw]
      · rw [beq_false_of_ne hq, if_neg hq]
    · intro k' hk'
      obtain ⟨h1, raw', h2⟩ := hk k' (List.mem_cons_of_mem _ hk')
      refine ⟨h1, raw', ?_⟩
      have : k' ≠ k := by rintro rfl; exact hnd.1 hk'
      rw [if_neg this]; exact h2

theorem mem_newIgnores (ids : List Str) (id : Str) : id ∈ newIgnores ids ↔ id ∈ ids := by
  unfold newIgnores
  rw [mem_sortStr, mem_dedupStr]

theorem newIgnores_eq {a b : List Str} (h : ∀ id, id ∈ a ↔ id ∈ b) : newIgnores a = newIgnores b := by
  unfold newIgnores
  apply sortStr_eq_of_perm
  apply (List.perm_ext_iff_of_nodup (nodup_dedupStr _) (nodup_dedupStr _)).2
  intro x
  rw [mem_dedupStr, mem_dedupStr]
  exact h x

theorem prep_config (S : Sorter) (env : Env) (f : Flags) (x : Final) (h : runPrep S env f = .inl x) :
    x.config = env.config := by
  unfold runPrep at h
  dsimp only at h
  generalize findAllLockfiles env { outputAsJSON := f.json } f.args f.parseAs = found at *
  split at h
  · cases h; rfl
  split at h
  · cases h; rfl
  split at h
  · cases h; rfl
  split at h
  · cases h; rfl
  rcases hst : startConfig env f found.1 with ⟨r, o⟩
  rw [hst] at h
  cases o with
  | none => cases h; rfl
  | some cc => cases h

/-- A run that stops early shows no result. -/
theorem prep_shown (S : Sorter) (env : Env) (f : Flags) (x : Final) (h : runPrep S env f = .inl x) :
    x.r.sum.shown = [] := by
  have h0 := sum_start f.json
  have hf := soft_findAll env { outputAsJSON := f.json } f.args f.parseAs
  unfold runPrep at h
  dsimp only at h
  generalize findAllLockfiles env { outputAsJSON := f.json } f.args f.parseAs = found at *
  rw [h0] at hf
  have hfs : found.1.sum.shown = [] := hf.2.2.2.1
  split at h
  · cases h; simp [h0]
  split at h
  · cases h
    unfold printKnownEcosystems
    dsimp only
    rw [sum_foldl_printText (fun e => .ecosystem (some e))]
    simp [h0]
  split at h
  · cases h
    have := (sum_printParsers (RState.printError { outputAsJSON := f.json } (.badParseAs f.parseAs))).2.2.2.1
    dsimp only
    rw [this, sum_printError, h0]; rfl
  split at h
  · cases h; simp [Sum.err, hfs]
  rcases hst : startConfig env f found.1 with ⟨r, o⟩
  rw [hst] at h
  cases o with
  | none =>
    cases h
    unfold startConfig at hst
    split at hst
    · cases hst
    · split at hst
      · split at hst
        · cases hst; simp [Sum.err, hfs]
        · cases hst
      · cases hst
  | some cc => cases h

theorem addIds_keys_sub (l : List (Str × Result)) (per : SMap (List Str)) (k : Str)
    (h : k ∈ (l.foldl addIds per).map (·.1)) : k ∈ per.map (·.1) ∨ k ∈ l.map (·.1) := by
  induction l generalizing per with
  | nil => exact .inl h
  | cons e l ih =>
    rw [List.foldl_cons] at h
    rcases ih _ h with h | h
    · unfold addIds at h
      split at h
      · exact .inl h
      · rw [SMap.keys_set] at h
        split at h
        · exact .inl h
        · rcases List.mem_append.1 h with h | h
          · exact .inl h
          · exact .inr (by rw [List.mem_singleton.1 h]; simp)
    · exact .inr (List.mem_cons_of_mem _ h)

theorem usedPaths_cellOK {file : Str → ConfigFile} {cells : List Config} (h : ∀ c ∈ cells, CellOK file c)
    (files : List FileEntry) (k : Str) (hk : k ∈ usedPaths cells files) (hne : k ≠ []) :
    Path.clean k = k ∧ ∃ raw, file k = .ok raw := by
  obtain ⟨x, _, rfl⟩ := List.mem_map.1 hk
  obtain ⟨h1, raw, h2, _⟩ := cellOK_getD h x.config hne
  exact ⟨h1, raw, h2⟩

/-- The config files after a run with `--update-config-ignores` in which all writes succeed. -/
theorem run_config (S : Sorter) (env : Env) (f : Flags) (hu : f.updateConfigIgnores = true)
    (hl : f.listPackages = false) (hup : ∀ p, env.update p = .complete)
    (p : LoopState × List DB × List FileEntry) (hp : runPrep S env f = .inr p) (q : Str) :
    (runBody S env f).config q =
      match (loopPer f p.2.1 p.1.cells 0 [] p.2.2).get? q, env.config q with
      | some ids, .ok raw => .ok { raw with ignore := newIgnores ids }
      | _, c => c := by
  obtain ⟨_, _, _, s4, s5, _⟩ := runBody_go S env f p hp
  rw [s4]
  unfold finish
  rw [hu]
  dsimp only
  rw [if_pos rfl, s5]
  have hper := loopPer_eq f hl hu p.2.1 p.1.cells 0 [] p.2.2
  apply writeUpdated_config
  · rw [hper]; exact addIds_nodup _ _ List.nodup_nil
  · intro k hk
    rw [hper] at hk
    have hne : k ≠ [] := by
      rintro rfl
      exact addIds_keys _ _ (by simp) hk
    rcases addIds_keys_sub _ _ _ hk with h | h
    · cases h
    · obtain ⟨e, he, rfl⟩ := List.mem_map.1 h
      exact usedPaths_cellOK (prep_cellOK S env f p hp) p.2.2 e.1 (List.of_mem_zip he).1 hne
  · exact hup

theorem used_length (f : Flags) (dbs : List DB) (cells : List Config) (i : Nat) (files : List FileEntry) :
    (usedPaths cells files).length = (loopResults f dbs cells i files).length := by
  induction files generalizing i with
  | nil => rfl
  | cons x xs ih =>
    rw [usedPaths_cons, loopResults_cons]
    unfold resultOf
    cases x.err <;> simp [ih (i + 1)]

/-- The result for a lockfile and the one for the same lockfile with the other configs. -/
theorem uses_pair (f : Flags) (hl : f.listPackages = false) (dbs : List DB) (a b : List Config)
    (hs : a.map Config.strip = b.map Config.strip) (i : Nat) (files : List FileEntry) (q : Str) (r : Result)
    (h : (q, r) ∈ (usedPaths b files).zip (loopResults f dbs b i files)) :
    ∃ k j l, q = (b.getD k {}).filePath ∧ r = .report (reportOf f dbs (b.getD k {}) j l) ∧
      (q, .report (reportOf f dbs (a.getD k {}) j l)) ∈ (usedPaths a files).zip (loopResults f dbs a i files) := by
  induction files generalizing i with
  | nil => cases h
  | cons x xs ih =>
    rw [usedPaths_cons, loopResults_cons] at h ⊢
    unfold resultOf at h ⊢
    cases hx : x.err with
    | true =>
      simp only [hx, if_true, Option.toList_none, List.nil_append] at h ⊢
      exact ih (i + 1) h
    | false =>
      simp only [hx, hl, Bool.false_eq_true, if_false, Option.toList_some, List.singleton_append,
        List.zip_cons_cons, List.mem_cons] at h ⊢
      rcases h with h | h
      · cases h
        exact ⟨x.config, i, x.lockf, rfl, rfl, .inl (by rw [strip_filePath (strip_getD_of_map hs x.config)])⟩
      · obtain ⟨k, j, l, h1, h2, h3⟩ := ih (i + 1) h
        exact ⟨k, j, l, h1, h2, .inr h3⟩

theorem usedPaths_same (a b : List Config) (hs : a.map Config.strip = b.map Config.strip) (files : List FileEntry) :
    usedPaths a files = usedPaths b files := by
  unfold usedPaths
  apply List.map_congr_left
  intro x _
  exact strip_filePath (strip_getD_of_map hs x.config)

/-- Collected IDs that agree as sets, for one path. -/
theorem PerSame.get? {a b : SMap (List Str)} (h : PerSame a b) (k : Str) :
    (a.get? k = none ∧ b.get? k = none) ∨
      ∃ l l', a.get? k = some l ∧ b.get? k = some l' ∧ ∀ id, id ∈ l ↔ id ∈ l' := by
  induction h with
  | nil => exact .inl ⟨rfl, rfl⟩
  | cons k' l l' a b hl _ ih =>
    unfold SMap.get? at *
    rw [List.lookup_cons, List.lookup_cons]
    cases k == k'
    · exact ih
    · exact .inr ⟨l, l', rfl, rfl, hl⟩

theorem sorted_newIgnores (ids : List Str) : (newIgnores ids).Pairwise (fun a b => Str.lt a b = true) := by
  have h1 := sortStr_sorted (dedupStr ids)
  have h2 : (newIgnores ids).Nodup := (sortStr_perm _).nodup_iff.2 (nodup_dedupStr ids)
  have h3 := h1.and h2
  refine h3.imp ?_
  rintro a b ⟨hle, hne⟩
  cases hlt : Str.lt a b with
  | true => rfl
  | false => exact absurd (Str.lt_total hlt hle) hne

end Osv
