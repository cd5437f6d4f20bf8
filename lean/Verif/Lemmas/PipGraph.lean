import Verif.Lemmas.Pip
import Verif.Lemmas.DetailMap
/-! # Includes of requirements.txt -/
namespace Osv
open Str Spec

namespace Pip

/-- A step of the loop, by the kind of line. -/
theorem requirementLine_iff (t : Str) : isNotRequirementLine t = false ↔ RequirementLine t := by
  unfold isNotRequirementLine RequirementLine
  simp only [Bool.or_eq_false_iff]
  have hp : ∀ p, hasPrefix t p = false ↔ ∀ u, t ≠ p ++ u := by
    intro p
    rw [Bool.eq_false_iff, ne_eq, hasPrefix_iff]
    constructor
    · intro h u e; exact h ⟨u, e⟩
    · rintro h ⟨u, e⟩; exact h u e
  rw [hp, hp, hp, hp, hp]
  have h0 : t.isEmpty = false ↔ t ≠ [] := by cases t <;> simp
  rw [h0]
  constructor
  · rintro ⟨⟨⟨⟨⟨a, b⟩, c⟩, d⟩, e⟩, f⟩
    exact ⟨a, b, e, f, c, d⟩
  · rintro ⟨a, b, e, f, c, d⟩
    exact ⟨⟨⟨⟨⟨a, b⟩, c⟩, d⟩, e⟩, f⟩

theorem cutPrefix_true {l p : Str} (h : (cutPrefix l p).2 = true) : l = p ++ (cutPrefix l p).1 := by
  unfold cutPrefix at h ⊢
  by_cases hp : hasPrefix l p = true
  · rw [if_pos hp]
    obtain ⟨t, rfl⟩ := (hasPrefix_iff _ _).1 hp
    simp
  · rw [if_neg hp] at h; cases h

theorem cutPrefix_false {l p : Str} (h : (cutPrefix l p).2 = false) (t : Str) : l ≠ p ++ t := by
  rintro rfl
  unfold cutPrefix at h
  rw [if_pos (hasPrefix_append _ _)] at h
  cases h

theorem cutPrefix_append (p t : Str) : cutPrefix (p ++ t) p = (t, true) := by
  unfold cutPrefix
  rw [if_pos (hasPrefix_append _ _)]
  simp

/-- More depth does not change a result. -/
theorem loop_mono {incl incl' : Str → List Str → Option ReqResult} (h : ∀ a r x, incl a r = some x → incl' a r = some x)
    (path : Str) (ls : List Str) (pk : SMap PackageDetails) (req : List Str) (x) :
    reqLoop incl path ls pk req = some x → reqLoop incl' path ls pk req = some x := by
  induction ls generalizing pk req with
  | nil => exact id
  | cons l ls ih =>
    unfold reqLoop
    dsimp only
    by_cases h1 : (cutPrefix (removeComments l) g!"-r ").2 = true
    · rw [if_pos h1, if_pos h1]
      by_cases h2 : req.contains (Path.join2 (Path.dir path) (cutPrefix (removeComments l) g!"-r ").1) = true
      · rw [if_pos h2, if_pos h2]; exact ih _ _
      · rw [if_neg h2, if_neg h2]
        generalize Path.join2 (Path.dir path) (cutPrefix (removeComments l) g!"-r ").1 = ar
        cases hi : incl ar (ar :: req) with
        | none => intro e; cases e
        | some y =>
          rw [h _ _ _ hi]
          obtain ⟨a, b⟩ := y
          cases a with
          | none => exact id
          | some ds => exact ih _ _
    · rw [if_neg h1, if_neg h1]
      by_cases h2 : isNotRequirementLine (removeComments l) = true
      · rw [if_pos h2, if_pos h2]; exact ih _ _
      · rw [if_neg h2, if_neg h2]; exact ih _ _

theorem at_mono (fs order) (n : Nat) (path : Str) (req : List Str) (x : ReqResult)
    (h : parseRequirementsAt fs order n path req = some x) : parseRequirementsAt fs order (n + 1) path req = some x := by
  induction n generalizing path req x with
  | zero => cases h
  | succ n ih =>
    unfold parseRequirementsAt at h ⊢
    cases hf : fs path with
    | none => rw [hf] at h; exact h
    | some content =>
      rw [hf] at h
      dsimp only at h ⊢
      cases hl : reqLoop (parseRequirementsAt fs order n) path (joinLines (Scanner.scan content).1) [] req with
      | none => rw [hl] at h; cases h
      | some y =>
        rw [hl] at h
        rw [loop_mono (fun a r x hx => ih a r x hx) path _ _ _ _ hl]
        exact h

theorem at_mono_le (fs order) (n m : Nat) (hnm : n ≤ m) (path : Str) (req : List Str) (x : ReqResult)
    (h : parseRequirementsAt fs order n path req = some x) : parseRequirementsAt fs order m path req = some x := by
  induction hnm with
  | refl => exact h
  | step _ ih => exact at_mono _ _ _ _ _ _ ih

/-- Files that can be read and have not been required yet. -/
def free (dom req : List Str) : Nat := (dom.filter fun p => !req.contains p).length

theorem free_mono {dom req req' : List Str} (h : ∀ p ∈ req, p ∈ req') : free dom req' ≤ free dom req := by
  unfold free
  induction dom with
  | nil => simp
  | cons d dom ih =>
    rw [List.filter_cons, List.filter_cons]
    by_cases h1 : d ∈ req
    · have h2 := h d h1
      simp only [List.contains_eq_mem, decide_eq_true h1, decide_eq_true h2, Bool.not_true]
      simpa using ih
    · by_cases h2 : d ∈ req'
      · simp only [List.contains_eq_mem, decide_eq_true h2, decide_eq_false h1, Bool.not_true, Bool.not_false]
        simp at ih ⊢; omega
      · simp only [List.contains_eq_mem, decide_eq_false h2, decide_eq_false h1, Bool.not_false]
        simp at ih ⊢; omega

theorem free_lt {dom req : List Str} {a : Str} (ha : a ∈ dom) (hr : a ∉ req) : free dom (a :: req) < free dom req := by
  induction dom with
  | nil => cases ha
  | cons d dom ih =>
    have hm : free dom (a :: req) ≤ free dom req := free_mono (fun p hp => by simp [hp])
    unfold free at *
    rw [List.filter_cons, List.filter_cons]
    by_cases hd : d = a
    · subst hd
      simp [hr] at hm ⊢
      omega
    · have ih := ih (by rcases List.mem_cons.1 ha with h | h; exact absurd h.symm hd; exact h)
      by_cases h1 : d ∈ req
      · simp [h1] at ih ⊢; exact ih
      · simp [h1, hd] at ih ⊢; exact ih

/-- The loop returns, and only adds to the required files. -/
theorem loop_total {incl : Str → List Str → Option ReqResult} (path : Str) (req0 : List Str)
    (h : ∀ ar req, (∀ p ∈ req0, p ∈ req) → ar ∉ req → ∃ x, incl ar (ar :: req) = some x ∧ ∀ p ∈ ar :: req, p ∈ x.2)
    (ls : List Str) (pk : SMap PackageDetails) (req : List Str) (hr : ∀ p ∈ req0, p ∈ req) :
    ∃ x, reqLoop incl path ls pk req = some x ∧ ∀ p ∈ req, p ∈ x.2 := by
  induction ls generalizing pk req with
  | nil => exact ⟨_, rfl, fun _ h => h⟩
  | cons l ls ih =>
    unfold reqLoop
    dsimp only
    by_cases h1 : (cutPrefix (removeComments l) g!"-r ").2 = true
    · rw [if_pos h1]
      generalize Path.join2 (Path.dir path) (cutPrefix (removeComments l) g!"-r ").1 = ar
      by_cases h2 : req.contains ar = true
      · rw [if_pos h2]; exact ih _ _ hr
      · rw [if_neg h2]
        have h2 : ar ∉ req := by simpa using h2
        obtain ⟨⟨a, b⟩, hx, hb⟩ := h ar req hr h2
        rw [hx]
        have hb' : ∀ p ∈ req, p ∈ b := fun p hp => hb p (by simp [hp])
        cases a with
        | none => exact ⟨_, rfl, hb'⟩
        | some ds =>
          obtain ⟨x, e, hx⟩ := ih (ds.foldl addDetail pk) b (fun p hp => hb' p (hr p hp))
          exact ⟨x, e, fun p hp => hx p (hb' p hp)⟩
    · rw [if_neg h1]
      by_cases h2 : isNotRequirementLine (removeComments l) = true
      · rw [if_pos h2]; exact ih _ _ hr
      · rw [if_neg h2]; exact ih _ _ hr

theorem at_total (fs order) (dom : List Str) (hd : ∀ p, fs p ≠ none → p ∈ dom) (n : Nat) (path : Str) (req : List Str)
    (h : free dom req + 2 ≤ n) :
    ∃ x, parseRequirementsAt fs order n path req = some x ∧ ∀ p ∈ req, p ∈ x.2 := by
  induction n generalizing path req with
  | zero => omega
  | succ n ih =>
    unfold parseRequirementsAt
    cases hf : fs path with
    | none => exact ⟨_, rfl, fun _ h => h⟩
    | some content =>
      dsimp only
      obtain ⟨⟨a, b⟩, e, hb⟩ := loop_total (incl := parseRequirementsAt fs order n) path req (by
        intro ar req' hr' har
        by_cases hfa : fs ar = none
        · cases n with
          | zero => omega
          | succ n =>
            unfold parseRequirementsAt
            rw [hfa]
            exact ⟨_, rfl, fun _ h => h⟩
        · have h1 := free_lt (hd ar hfa) har
          have h2 := free_mono (dom := dom) hr'
          exact ih ar (ar :: req') (by omega)) (joinLines (Scanner.scan content).1) [] req (fun _ h => h)
      rw [e]
      cases a with
      | none => exact ⟨_, rfl, hb⟩
      | some pk =>
        dsimp only
        split
        · exact ⟨_, rfl, hb⟩
        · exact ⟨_, rfl, hb⟩

/-- The key of the package is in the map. -/
def HasKey (m : SMap PackageDetails) (d : PackageDetails) : Prop := detailKey d ∈ m.map (·.1)

/-- What has been achieved between two states: required files that were added have been read, their packages are in the
map and their includes are required; the map has grown by packages of these files or of the given lines. -/
structure Progress (fs : Str → Option Str) (root : Str) (src : PackageDetails → Prop)
    (pk : SMap PackageDetails) (req : List Str) (pk' : SMap PackageDetails) (req' : List Str) : Prop where
  req_sub : ∀ p ∈ req, p ∈ req'
  keys_sub : ∀ k ∈ pk.map (·.1), k ∈ pk'.map (·.1)
  readable : ∀ p ∈ req', p ∉ req → ReadableText fs p
  reach : ∀ p ∈ req', p ∉ req → IncludeReach fs root p
  complete : ∀ p ∈ req', p ∉ req → ∀ d, Requires fs p d → HasKey pk' d
  closed : ∀ p ∈ req', p ∉ req → ∀ q, Includes fs p q → q ∈ req'
  sound : ∀ x ∈ pk', x ∈ pk ∨ (x.1 = detailKey x.2 ∧ (src x.2 ∨ ∃ p ∈ req', p ∉ req ∧ Requires fs p x.2))

/-- The result of a successful call. -/
structure CallOK (fs : Str → Option Str) (path : Str) (req : List Str) (ds : List PackageDetails) (req' : List Str) :
    Prop where
  req_sub : ∀ p ∈ req, p ∈ req'
  readable : ∀ p, p = path ∨ (p ∈ req' ∧ p ∉ req) → ReadableText fs p
  reach : ∀ p ∈ req', p ∉ req → IncludeReach fs path p
  complete : ∀ p, p = path ∨ (p ∈ req' ∧ p ∉ req) → ∀ d, Requires fs p d → ∃ d' ∈ ds, detailKey d' = detailKey d
  closed : ∀ p, p = path ∨ (p ∈ req' ∧ p ∉ req) → ∀ q, Includes fs p q → q ∈ req'
  sound : ∀ d ∈ ds, ∃ p, (p = path ∨ (p ∈ req' ∧ p ∉ req)) ∧ Requires fs p d
  nodup : (ds.map detailKey).Nodup

theorem reach_trans {fs : Str → Option Str} {a b c : Str} (h1 : IncludeReach fs a b) (h2 : IncludeReach fs b c) :
    IncludeReach fs a c := by
  induction h2 with
  | root => exact h1
  | step _ h ih => exact .step ih h

/-- The loop of a successful call. -/
theorem loop_ok {fs : Str → Option Str} {incl : Str → List Str → Option ReqResult} {path : Str}
    (hincl : ∀ ar req ds req', incl ar req = some (some ds, req') → CallOK fs ar req ds req')
    (ls : List Str) (hls : ∀ l ∈ ls, FileLine fs path (removeComments l))
    (pk : SMap PackageDetails) (req : List Str) (pk' : SMap PackageDetails) (req' : List Str)
    (h : reqLoop incl path ls pk req = some (some pk', req')) :
    Progress fs path (Requires fs path) pk req pk' req' ∧
    (∀ l ∈ ls, RequirementLine (removeComments l) → ∀ d, ReqEntry (removeComments l) d → HasKey pk' d) ∧
    (∀ l ∈ ls, ∀ ar, removeComments l = g!"-r " ++ ar → Path.join2 (Path.dir path) ar ∈ req') ∧
    ((pk.map (·.1)).Nodup → (pk'.map (·.1)).Nodup) := by
  induction ls generalizing pk req with
  | nil =>
    cases h
    exact ⟨⟨fun _ h => h, fun _ h => h, fun p h h' => absurd h h', fun p h h' => absurd h h', fun p h h' => absurd h h',
      fun p h h' => absurd h h', fun x hx => Or.inl hx⟩, by simp, by simp, id⟩
  | cons l ls ih =>
    have ih := ih (fun x hx => hls x (by simp [hx]))
    have hl := hls l (by simp)
    unfold reqLoop at h
    dsimp only at h
    by_cases h1 : (cutPrefix (removeComments l) g!"-r ").2 = true
    · rw [if_pos h1] at h
      have el := cutPrefix_true h1
      have hnot : ¬ RequirementLine (removeComments l) := fun hr => hr.2.1 _ el
      have hinc : ∀ ar, removeComments l = g!"-r " ++ ar → (cutPrefix (removeComments l) g!"-r ").1 = ar := by
        intro ar e; rw [e, cutPrefix_append]
      have hI : Includes fs path (Path.join2 (Path.dir path) (cutPrefix (removeComments l) g!"-r ").1) :=
        ⟨_, el ▸ hl, rfl⟩
      by_cases h2 : req.contains (Path.join2 (Path.dir path) (cutPrefix (removeComments l) g!"-r ").1) = true
      · rw [if_pos h2] at h
        obtain ⟨i1, i2, i3, i4⟩ := ih pk req h
        refine ⟨i1, ?_, ?_, i4⟩
        · intro x hx hr
          rcases List.mem_cons.1 hx with rfl | hx
          · exact absurd hr hnot
          · exact i2 x hx hr
        · intro x hx ar e
          rcases List.mem_cons.1 hx with rfl | hx
          · rw [← hinc ar e]; exact i1.req_sub _ (by simpa using h2)
          · exact i3 x hx ar e
      · rw [if_neg h2] at h
        generalize ea : Path.join2 (Path.dir path) (cutPrefix (removeComments l) g!"-r ").1 = a at *
        have h2 : a ∉ req := by simpa using h2
        cases hi : incl a (a :: req) with
        | none => rw [hi] at h; cases h
        | some y =>
          rw [hi] at h
          obtain ⟨o, req1⟩ := y
          cases o with
          | none => cases h
          | some ds =>
            dsimp only at h
            have hc := hincl _ _ _ _ hi
            obtain ⟨i1, i2, i3, i4⟩ := ih (ds.foldl addDetail pk) req1 h
            have ha1 : a ∈ req1 := hc.req_sub a (by simp)
            have hr1 : ∀ p ∈ req, p ∈ req1 := fun p hp => hc.req_sub p (by simp [hp])
            -- a newly required file comes from the include or from the rest
            have new : ∀ p ∈ req', p ∉ req → (p = a ∨ (p ∈ req1 ∧ p ∉ a :: req)) ∨ (p ∈ req' ∧ p ∉ req1) := by
              intro p hp hn
              by_cases h3 : p ∈ req1
              · left
                by_cases h4 : p = a
                · exact Or.inl h4
                · exact Or.inr ⟨h3, by simp [h4, hn]⟩
              · exact Or.inr ⟨hp, h3⟩
            have back : ∀ p, (p = a ∨ (p ∈ req1 ∧ p ∉ a :: req)) → p ∈ req' ∧ p ∉ req := by
              rintro p (rfl | ⟨h3, h4⟩)
              · exact ⟨i1.req_sub _ ha1, h2⟩
              · exact ⟨i1.req_sub _ h3, fun h5 => h4 (by simp [h5])⟩
            have hkey : ∀ d, (∃ d' ∈ ds, detailKey d' = detailKey d) → HasKey pk' d := by
              rintro d ⟨d', hd', e⟩
              refine i1.keys_sub _ ?_
              rw [DetailMap.fold_keys]
              exact Or.inr ⟨d', hd', e.symm⟩
            have hra : IncludeReach fs path a := .step .root hI
            refine ⟨⟨?_, ?_, ?_, ?_, ?_, ?_, ?_⟩, ?_, ?_, ?_⟩
            · exact fun p hp => i1.req_sub p (hr1 p hp)
            · intro k hk
              exact i1.keys_sub k ((DetailMap.fold_keys _ _ _).2 (Or.inl hk))
            · intro p hp hn
              rcases new p hp hn with hp | ⟨h3, h4⟩
              · exact hc.readable p hp
              · exact i1.readable p h3 h4
            · intro p hp hn
              rcases new p hp hn with (rfl | ⟨h3, h4⟩) | ⟨h3, h4⟩
              · exact hra
              · exact reach_trans hra (hc.reach p h3 h4)
              · exact i1.reach p h3 h4
            · intro p hp hn d hd
              rcases new p hp hn with hp | ⟨h3, h4⟩
              · exact hkey d (hc.complete p hp d hd)
              · exact i1.complete p h3 h4 d hd
            · intro p hp hn q hq
              rcases new p hp hn with hp | ⟨h3, h4⟩
              · exact i1.req_sub _ (hc.closed p hp q hq)
              · exact i1.closed p h3 h4 q hq
            · intro x hx
              rcases i1.sound x hx with hx | ⟨e, hx⟩
              · rcases DetailMap.fold_mem _ _ _ hx with hx | ⟨d, hd, rfl⟩
                · exact Or.inl hx
                · right
                  obtain ⟨p, hp, hq⟩ := hc.sound d hd
                  exact ⟨rfl, Or.inr ⟨p, (back p hp).1, (back p hp).2, hq⟩⟩
              · right
                rcases hx with hx | ⟨p, hp, hn, hq⟩
                · exact ⟨e, Or.inl hx⟩
                · exact ⟨e, Or.inr ⟨p, hp, fun h5 => hn (hr1 p h5), hq⟩⟩
            · intro x hx hr
              rcases List.mem_cons.1 hx with rfl | hx
              · exact absurd hr hnot
              · exact i2 x hx hr
            · intro x hx ar e
              rcases List.mem_cons.1 hx with rfl | hx
              · rw [← hinc ar e, ea]; exact i1.req_sub _ ha1
              · exact i3 x hx ar e
            · exact fun hn => i4 (DetailMap.fold_nodup _ _ hn)
    · rw [if_neg h1] at h
      have h1' : (cutPrefix (removeComments l) g!"-r ").2 = false := by simpa using h1
      by_cases h2 : isNotRequirementLine (removeComments l) = true
      · rw [if_pos h2] at h
        obtain ⟨i1, i2, i3, i4⟩ := ih pk req h
        refine ⟨i1, ?_, ?_, i4⟩
        · intro x hx hr
          rcases List.mem_cons.1 hx with rfl | hx
          · rw [(requirementLine_iff _).2 hr] at h2; cases h2
          · exact i2 x hx hr
        · intro x hx ar e
          rcases List.mem_cons.1 hx with rfl | hx
          · exact absurd e (cutPrefix_false h1' ar)
          · exact i3 x hx ar e
      · rw [if_neg h2] at h
        have hreq : RequirementLine (removeComments l) := (requirementLine_iff _).1 (by simpa using h2)
        obtain ⟨i1, i2, i3, i4⟩ := ih _ req h
        refine ⟨⟨i1.req_sub, ?_, i1.readable, i1.reach, i1.complete, i1.closed, ?_⟩, ?_, ?_, ?_⟩
        · intro k hk
          exact i1.keys_sub k ((SMap.mem_keys_set _ _ _ _).2 (Or.inr hk))
        · intro x hx
          rcases i1.sound x hx with hx | hx
          · rcases SMap.mem_set _ _ _ _ hx with rfl | hx
            · exact Or.inr ⟨rfl, Or.inl ⟨_, hl, hreq, parse_entry _⟩⟩
            · exact Or.inl hx
          · exact Or.inr hx
        · intro x hx hr d hd
          rcases List.mem_cons.1 hx with rfl | hx
          · refine i1.keys_sub _ ((SMap.mem_keys_set _ _ _ _).2 (Or.inl ?_))
            rw [entry_unique hd (parse_entry _)]
          · exact i2 x hx hr d hd
        · intro x hx ar e
          rcases List.mem_cons.1 hx with rfl | hx
          · exact absurd e (cutPrefix_false h1' ar)
          · exact i3 x hx ar e
        · exact fun hn => i4 (SMap.nodup_set _ _ _ hn)

/-- Lines of the file are the joined lines without comments. -/
theorem fileLine_iff {fs : Str → Option Str} {p content : Str} (h : fs p = some content) (t : Str) :
    FileLine fs p t ↔ ∃ j ∈ joinLines (Scanner.scan content).1, removeComments j = t := by
  have hn := joined_no_newline (joined (Scanner.scan content).1) (fun l hl => Scanner.scan_no_newline content l hl)
  constructor
  · rintro ⟨c, js, j, hc, hj, hm, hu⟩
    rw [h] at hc
    cases hc
    cases joined_unique hj (joined _)
    exact ⟨j, hm, uncommented_unique (uncommented j (hn j hm)) hu⟩
  · rintro ⟨j, hm, rfl⟩
    exact ⟨content, _, j, h, joined _, hm, uncommented j (hn j hm)⟩

theorem at_ok {fs : Str → Option Str} {order : Str → List Str → List PackageDetails → List PackageDetails}
    (ho : ∀ p r l, (order p r l).Perm l) (n : Nat) (path : Str) (req : List Str) (ds : List PackageDetails)
    (req' : List Str) (h : parseRequirementsAt fs order n path req = some (some ds, req')) :
    CallOK fs path req ds req' := by
  induction n generalizing path req ds req' with
  | zero => cases h
  | succ n ih =>
    unfold parseRequirementsAt at h
    cases hf : fs path with
    | none => rw [hf] at h; cases h
    | some content =>
      rw [hf] at h
      dsimp only at h
      cases hl : reqLoop (parseRequirementsAt fs order n) path (joinLines (Scanner.scan content).1) [] req with
      | none => rw [hl] at h; cases h
      | some y =>
        rw [hl] at h
        obtain ⟨o, req1⟩ := y
        cases o with
        | none => cases h
        | some pk =>
          dsimp only at h
          by_cases hs : (Scanner.scan content).2 = true
          · rw [if_pos hs] at h; cases h
          · rw [if_neg hs] at h
            have hs : (Scanner.scan content).2 = false := by simpa using hs
            injection h with h
            injection h with h1 h2
            injection h1 with h1
            subst h2
            have hperm := ho path req (pk.map (·.2))
            rw [h1] at hperm
            obtain ⟨i1, i2, i3, i4⟩ := loop_ok (fs := fs) (fun ar r d r' hh => ih ar r d r' hh) _
              (fun l hl => (fileLine_iff hf _).2 ⟨l, hl, rfl⟩) _ _ _ _ hl
            have hkeyed : DetailMap.Keyed pk := by
              intro x hx
              rcases i1.sound x hx with h | h
              · cases h
              · exact h.1
            have hkey : ∀ d, HasKey pk d → ∃ d' ∈ ds, detailKey d' = detailKey d := by
              intro d hd
              unfold HasKey at hd
              obtain ⟨x, hx, e⟩ := List.mem_map.1 hd
              refine ⟨x.2, hperm.symm.subset (List.mem_map.2 ⟨x, hx, rfl⟩), ?_⟩
              rw [← hkeyed x hx, e]
            refine ⟨i1.req_sub, ?_, i1.reach, ?_, ?_, ?_, ?_⟩
            · rintro p (rfl | ⟨h3, h4⟩)
              · exact ⟨content, hf, hs⟩
              · exact i1.readable p h3 h4
            · rintro p (rfl | ⟨h3, h4⟩) d hd
              · obtain ⟨t, ht, hr, he⟩ := hd
                obtain ⟨j, hj, rfl⟩ := (fileLine_iff hf _).1 ht
                exact hkey d (i2 j hj hr d he)
              · exact hkey d (i1.complete p h3 h4 d hd)
            · rintro p (rfl | ⟨h3, h4⟩) q hq
              · obtain ⟨ar, ht, rfl⟩ := hq
                obtain ⟨j, hj, e⟩ := (fileLine_iff hf _).1 ht
                exact i3 j hj ar e
              · exact i1.closed p h3 h4 q hq
            · intro d hd
              obtain ⟨x, hx, rfl⟩ := List.mem_map.1 (hperm.subset hd)
              rcases i1.sound x hx with h | ⟨_, h | ⟨p, h3, h4, h5⟩⟩
              · cases h
              · exact ⟨path, Or.inl rfl, h⟩
              · exact ⟨p, Or.inr ⟨h3, h4⟩, h5⟩
            · have := i4 (by simp)
              rw [← DetailMap.keyed_values hkeyed] at this
              exact (hperm.map detailKey).nodup_iff.2 this

/-- A failing loop has met an include that fails. -/
theorem loop_fail {fs : Str → Option Str} {incl : Str → List Str → Option ReqResult} {path : Str}
    (hincl : ∀ ar req req', incl ar req = some (none, req') → ∃ q, IncludeReach fs ar q ∧ ¬ ReadableText fs q)
    (ls : List Str) (hls : ∀ l ∈ ls, FileLine fs path (removeComments l))
    (pk : SMap PackageDetails) (req req' : List Str) (h : reqLoop incl path ls pk req = some (none, req')) :
    ∃ q, IncludeReach fs path q ∧ ¬ ReadableText fs q := by
  induction ls generalizing pk req with
  | nil => cases h
  | cons l ls ih =>
    have ih := ih (fun x hx => hls x (by simp [hx]))
    have hl := hls l (by simp)
    unfold reqLoop at h
    dsimp only at h
    by_cases h1 : (cutPrefix (removeComments l) g!"-r ").2 = true
    · rw [if_pos h1] at h
      have el := cutPrefix_true h1
      have hI : Includes fs path (Path.join2 (Path.dir path) (cutPrefix (removeComments l) g!"-r ").1) :=
        ⟨_, el ▸ hl, rfl⟩
      generalize Path.join2 (Path.dir path) (cutPrefix (removeComments l) g!"-r ").1 = a at *
      by_cases h2 : req.contains a = true
      · rw [if_pos h2] at h; exact ih _ _ h
      · rw [if_neg h2] at h
        cases hi : incl a (a :: req) with
        | none => rw [hi] at h; cases h
        | some y =>
          rw [hi] at h
          obtain ⟨o, req1⟩ := y
          cases o with
          | none =>
            obtain ⟨q, hq, hn⟩ := hincl _ _ _ hi
            exact ⟨q, reach_trans (.step .root hI) hq, hn⟩
          | some ds => exact ih _ _ h
    · rw [if_neg h1] at h
      by_cases h2 : isNotRequirementLine (removeComments l) = true
      · rw [if_pos h2] at h; exact ih _ _ h
      · rw [if_neg h2] at h; exact ih _ _ h

theorem at_fail {fs : Str → Option Str} {order : Str → List Str → List PackageDetails → List PackageDetails}
    (n : Nat) (path : Str) (req req' : List Str) (h : parseRequirementsAt fs order n path req = some (none, req')) :
    ∃ q, IncludeReach fs path q ∧ ¬ ReadableText fs q := by
  induction n generalizing path req req' with
  | zero => cases h
  | succ n ih =>
    unfold parseRequirementsAt at h
    cases hf : fs path with
    | none =>
      refine ⟨path, .root, ?_⟩
      rintro ⟨c, hc, _⟩
      rw [hf] at hc; cases hc
    | some content =>
      rw [hf] at h
      dsimp only at h
      cases hl : reqLoop (parseRequirementsAt fs order n) path (joinLines (Scanner.scan content).1) [] req with
      | none => rw [hl] at h; cases h
      | some y =>
        rw [hl] at h
        obtain ⟨o, req1⟩ := y
        cases o with
        | none =>
          exact loop_fail (fun ar r r' hh => ih ar r r' hh) _ (fun l hl => (fileLine_iff hf _).2 ⟨l, hl, rfl⟩) _ _ _ hl
        | some pk =>
          dsimp only at h
          by_cases hs : (Scanner.scan content).2 = true
          · refine ⟨path, .root, ?_⟩
            rintro ⟨c, hc, hcs⟩
            rw [hf] at hc
            cases hc
            rw [hs] at hcs; cases hcs
          · rw [if_neg hs] at h; cases h

end Pip
end Osv
