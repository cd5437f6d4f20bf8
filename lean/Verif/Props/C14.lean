import Verif.Props.C13
/-! # C14 API results align for every schedule, and any failed batch fails the check -/
namespace Osv

/-- The packages of the batch that position `i` of the batch list stands for. -/
theorem slots_ok {β : Type} {n : Nat} {task : Nat → Except ApiErr β} {s : EGState ApiErr β} {limit : Nat}
    (h : EG.Reachable n limit task s) (hf : EG.Final n s) (he : s.err = none) (d : β) (i : Nat) (hi : i < n) :
    (s.slots.map fun o => o.getD d).length = n ∧
    ∃ b, task i = .ok b ∧ (s.slots.map fun o => o.getD d)[i]? = some b := by
  refine ⟨by simp [(EG.inv_reachable h).len], ?_⟩
  obtain ⟨b, h1, h2⟩ := EG.final_ok h hf he i hi
  exact ⟨b, h1, by simp [h2]⟩

/-- If any batch fails the check fails, with the error of a failing batch, for every interleaving. -/
theorem C14_any_failure_fails (S : Sorter) (env : ApiEnv) (size : Nat) (pkgs : List PackageDetails)
    (res : Except ApiErr (List (List OSV))) (h : APICheck S env size pkgs res)
    (batches : List (List PackageDetails)) (hb : batchPkgs pkgs size = some batches)
    (i : Nat) (hi : i < batches.length) (e : ApiErr)
    (hfail : checkBatch env.parse (env.post i) (batches.getD i []) = .error e) :
    ∃ e' j, res = .error e' ∧ j < batches.length ∧
      checkBatch env.parse (env.post j) (batches.getD j []) = .error e' := by
  obtain ⟨bs, hbs, s, hr, hf, hm⟩ := h
  rw [hb] at hbs; cases hbs
  obtain ⟨e', he'⟩ := EG.final_err_of_task hr hf hi hfail
  rw [he'] at hm
  obtain ⟨j, hj, hj'⟩ := EG.final_err hr hf e' he'
  exact ⟨e', j, hm, hj, hj'⟩

/-- If no batch fails the check succeeds, for every interleaving. -/
theorem C14_no_failure_succeeds (S : Sorter) (env : ApiEnv) (size : Nat) (pkgs : List PackageDetails)
    (res : Except ApiErr (List (List OSV))) (h : APICheck S env size pkgs res)
    (batches : List (List PackageDetails)) (hb : batchPkgs pkgs size = some batches)
    (hok : ∀ i, i < batches.length → ∃ r, checkBatch env.parse (env.post i) (batches.getD i []) = .ok r) :
    ∃ out, res = .ok out := by
  obtain ⟨bs, hbs, s, hr, hf, hm⟩ := h
  rw [hb] at hbs; cases hbs
  cases he : s.err with
  | some e =>
    obtain ⟨j, hj, hj'⟩ := EG.final_err hr hf e he
    obtain ⟨r, hr'⟩ := hok j hj
    have hj'' : checkBatch env.parse (env.post j) (batches.getD j []) = .error e := hj'
    rw [hr'] at hj''; cases hj''
  | none =>
    rw [he] at hm
    obtain ⟨osvs, -, h⟩ := hm
    exact ⟨_, h⟩

/-- When a batch succeeds: the server answers 200 with a body that can be read and decoded into one result per
package. Everything else is a failure of the batch. -/
theorem C14_batch_ok_iff (parse : Str → Option (List (List Str))) (post : List ApiQuery → HttpOutcome)
    (pkgs : List PackageDetails) (rs : List (List Str)) :
    checkBatch parse post pkgs = .ok rs ↔
      ∃ body, post (pkgs.map buildAPIPayload) = .response 200 (some body) ∧ parse body = some rs ∧
        rs.length = pkgs.length := by
  unfold checkBatch
  cases post (pkgs.map buildAPIPayload) with
  | invalid => simp
  | failed => simp
  | response status body =>
    dsimp only
    by_cases hs : status = 200
    · rw [if_neg (not_not_intro hs)]
      subst hs
      cases body with
      | none => simp
      | some b =>
        dsimp only
        cases hp : parse b with
        | none => simp [hp]
        | some rs' =>
          dsimp only
          by_cases hl : pkgs.length = rs'.length
          · rw [if_neg (not_not_intro hl)]
            constructor
            · intro h; cases h; exact ⟨b, rfl, hp, hl.symm⟩
            · rintro ⟨b', h1, h2, _⟩
              cases h1
              rw [hp] at h2; cases h2; rfl
          · rw [if_pos hl]
            constructor
            · intro h; cases h
            · rintro ⟨b', h1, h2, h3⟩
              cases h1
              rw [hp] at h2; cases h2
              exact absurd h3.symm hl
    · rw [if_pos hs]
      constructor
      · intro h; cases h
      · rintro ⟨b', h1, _⟩
        cases h1
        exact absurd rfl hs

theorem findOrDefault_id (vs : List OSV) (d : OSV) : (findOrDefault vs d).id = d.id := by
  unfold findOrDefault
  cases h : vs.find? fun v => v.id = d.id with
  | none => rfl
  | some v => simpa using List.find?_some h

theorem checkBatch_length {parse : Str → Option (List (List Str))} {post : List ApiQuery → HttpOutcome}
    {pkgs : List PackageDetails} {rs : List (List Str)} (h : checkBatch parse post pkgs = .ok rs) :
    rs.length = pkgs.length := by
  unfold checkBatch at h
  split at h
  · cases h
  · cases h
  · split at h
    · cases h
    · split at h
      · cases h
      · split at h
        · cases h
        · split at h
          · cases h
          · rename_i hl; cases h; omega

/-- Positions in a concatenation of lists: blocks of the same shape as the batches. -/
theorem flatten_getElem? {α β γ : Type} (g : α → γ) :
    ∀ (xs : List (List α)) (ys : List (List β)) (i : Nat) (k : Nat) (j : Nat) (x : List α),
      xs.length = ys.length → (∀ (k : Nat) (x : List α) (y : List β), xs[k]? = some x → ys[k]? = some y → x.length = y.length) →
      i = ((ys.take k).map List.length).sum + j → xs[k]? = some x → j < x.length →
      (xs.flatMap fun r => r.map g)[i]? = (x[j]?).map g := by
  intro xs
  induction xs with
  | nil => intro ys i k j x _ _ _ hx; simp at hx
  | cons a xs ih =>
    intro ys i k j x hl hs hi hx hj
    cases ys with
    | nil => simp at hl
    | cons b ys =>
      have hab : a.length = b.length := hs 0 a b rfl rfl
      rw [List.flatMap_cons]
      cases k with
      | zero =>
        simp at hx; subst hx
        simp at hi; subst hi
        rw [List.getElem?_append_left (by simpa using hj)]
        simp
      | succ k =>
        simp only [List.take_succ_cons, List.map_cons, List.sum_cons] at hi
        rw [List.getElem?_append_right (by simp; omega)]
        refine ih ys _ k j x (by simpa using hl) ?_ ?_ (by simpa using hx) hj
        · intro k x y hx hy; exact hs (k + 1) x y hx hy
        · rw [List.length_map]; omega

theorem batch_offset {α : Type} (pkgs : List α) (size : Nat) (batches : List (List α))
    (h : batchPkgs pkgs size = some batches) (k : Nat) (hk : k < batches.length) :
    ((batches.take k).map List.length).sum = k * size := by
  have hfull := (C13_sizes pkgs size batches h).2
  have : ∀ b ∈ batches.take k, b.length = size := by
    intro b hb
    apply hfull
    rw [List.dropLast_eq_take]
    exact (List.take_sublist_take_left (by omega)).mem hb
  have hlen : (batches.take k).length = k := by simp; omega
  clear hk
  generalize batches.take k = l at this hlen
  subst hlen
  induction l with
  | nil => simp
  | cons b l ih =>
    simp only [List.map_cons, List.sum_cons, List.length_cons, Nat.succ_mul]
    rw [ih fun x hx => this x (by simp [hx]), this b (by simp)]
    omega

/-- The shape of a successful check: one record list per package, whose IDs are those at the package's
position in the response to the package's batch. -/
theorem C14_aligned (S : Sorter) (env : ApiEnv) (size : Nat) (pkgs : List PackageDetails)
    (out : List (List OSV)) (h : APICheck S env size pkgs (.ok out)) :
    out.length = pkgs.length ∧
    ∀ i, i < pkgs.length → ∃ batches responses ids,
      batchPkgs pkgs size = some batches ∧
      checkBatch env.parse (env.post (i / size)) (batches.getD (i / size) []) = .ok responses ∧
      (batches.getD (i / size) [])[i % size]? = pkgs[i]? ∧
      responses[i % size]? = some ids ∧
      (out[i]?).map (fun vs => vs.map (·.id)) = some ids := by
  obtain ⟨batches, hb, s, hr, hf, hm⟩ := h
  cases he : s.err with
  | some e => rw [he] at hm; cases hm
  | none =>
    rw [he] at hm
    obtain ⟨osvs, -, hout⟩ := hm
    simp only [Except.ok.injEq] at hout
    have hlen := (EG.inv_reachable hr).len
    let rs := s.slots.map fun o => o.getD []
    have hrs : ∀ k, k < batches.length → ∃ r, env.batchTask batches k = .ok r ∧ rs[k]? = some r :=
      fun k hk => (slots_ok hr hf he [] k hk).2
    have hshape : ∀ (k : Nat) (x : List (List Str)) (y : List PackageDetails),
        rs[k]? = some x → batches[k]? = some y → x.length = y.length := by
      intro k x y hx hy
      have hk : k < batches.length := (List.getElem?_eq_some_iff.mp hy).1
      obtain ⟨r, h1, h2⟩ := hrs k hk
      rw [h2] at hx; cases hx
      have := checkBatch_length h1
      rw [List.getD_eq_getElem?_getD, hy] at this
      exact this
    have hrlen : rs.length = batches.length := by simp [rs, hlen]
    have hids : out.map (fun vs => vs.map (·.id)) = rs.flatten := by
      rw [hout]
      show List.map _ (List.map _ (bareResults rs)) = _
      unfold bareResults
      rw [List.map_map, List.map_flatMap]
      induction rs with
      | nil => rfl
      | cons r rs ih =>
        rw [List.flatMap_cons, List.flatten_cons, ih, List.map_map]
        congr 1
        conv => rhs; rw [← List.map_id r]
        apply List.map_congr_left
        intro ids _
        simp [Function.comp_def, findOrDefault_id]
    have hflat : rs.flatten.length = batches.flatten.length := by
      rw [List.length_flatten, List.length_flatten]
      congr 1
      apply List.ext_getElem?
      intro k
      simp only [List.getElem?_map]
      by_cases hk : k < batches.length
      · obtain ⟨r, -, h2⟩ := hrs k hk
        rw [h2, List.getElem?_eq_getElem hk]
        simp [hshape k r _ h2 (List.getElem?_eq_getElem hk)]
      · rw [List.getElem?_eq_none (by omega), List.getElem?_eq_none (by omega)]
        rfl
    refine ⟨?_, ?_⟩
    · have := congrArg List.length hids
      rw [List.length_map, hflat, C13_concat pkgs size batches hb] at this
      exact this
    · intro i hi
      obtain ⟨b, hb1, hb2⟩ := C13_positions pkgs size batches hb i hi
      have hk : i / size < batches.length := (List.getElem?_eq_some_iff.mp hb1).1
      obtain ⟨r, h1, h2⟩ := hrs _ hk
      have hbl : i % size < b.length := by
        rw [List.getElem?_eq_getElem hi] at hb2
        exact (List.getElem?_eq_some_iff.mp hb2).1
      have hrl : i % size < r.length := by rw [hshape _ r b h2 hb1]; exact hbl
      refine ⟨batches, r, r[i % size], hb, h1, ?_, List.getElem?_eq_getElem hrl, ?_⟩
      · rw [List.getD_eq_getElem?_getD, hb1]; exact hb2
      · have hpos := flatten_getElem? (fun x : List Str => x) rs batches i (i / size) (i % size) r hrlen hshape
          (by rw [batch_offset pkgs size batches hb _ hk]
              have := Nat.div_add_mod i size
              have : i / size * size = size * (i / size) := Nat.mul_comm ..
              omega) h2 hrl
        rw [← List.getElem?_map, hids]
        have e : (rs.flatMap fun r => r.map fun x : List Str => x) = rs.flatten := by
          simp [List.flatMap, List.map_id']
        rw [e] at hpos
        rw [hpos, List.getElem?_eq_getElem hrl]
        rfl

/-- Every check terminates: some interleaving completes, every interleaving is finite
(`EG.step_decreases`) and can always be continued (`EG.progress`). -/
theorem C14_terminates (S : Sorter) (env : ApiEnv) (size : Nat) (hs : 0 < size) (pkgs : List PackageDetails) :
    ∃ res, APICheck S env size pkgs res := by
  obtain ⟨batches, hb⟩ := C13_total pkgs size hs
  obtain ⟨s, hr, hf⟩ := EG.exists_final (n := batches.length) (limit := 100) (by omega) (env.batchTask batches)
  cases he : s.err with
  | some e => exact ⟨.error e, batches, hb, s, hr, hf, by rw [he]⟩
  | none =>
    let ids := idsToFetch (bareResults (s.slots.map fun o => o.getD []))
    obtain ⟨t, ht, hft⟩ := EG.exists_final (n := ids.length) (limit := 200) (by omega) (env.fetchTask ids)
    refine ⟨.ok ((bareResults (s.slots.map fun o => o.getD [])).map fun vs => vs.map (findOrDefault
      (S.sort lessID (t.slots.map fun o => o.getD default)))), batches, hb, s, hr, hf, ?_⟩
    rw [he]
    exact ⟨_, ⟨t, ht, hft, rfl⟩, rfl⟩

/-- A server that answers every batch with one finding per package. -/
def sampleApiEnv : ApiEnv where
  post _ qs := .response 200 (some (List.replicate qs.length 'x'))
  get _ _ := .failed
  parse b := some (b.map fun _ => [g!"A"])
  decode _ := default

example : (∀ i b, checkBatch sampleApiEnv.parse (sampleApiEnv.post i) b = .ok (b.map fun _ => [g!"A"])) := by
  intro i b
  simp [checkBatch, sampleApiEnv, List.map_const']

end Osv
