import Verif.Lemmas.Bun
import Verif.Lemmas.Json
/-!
# C54: bun.lock tuples

An empty tuple makes the program panic instead of being skipped (`C54_counterexample`); everything else is as claimed.
The conversion from JSON with comments (`github.com/tidwall/jsonc`) is any function here; it is modelled in C77.
-/
namespace Osv
open Str Spec

namespace Bun

theorem decAny_some {isFloat : Str → Bool} {v w : JVal} (h : decAny isFloat v = some w) : v = w := by
  unfold decAny at h
  split at h
  · injection h
  · cases h

mutual
/-- A value is accepted if all numbers in it are. -/
theorem any_ok (isFloat : Str → Bool) : ∀ v : JVal, anyOk isFloat v = true ↔ ∀ lit, NumberIn lit v → isFloat lit = true
  | .num lit => ⟨fun h l hl => by cases hl; exact h, fun h => h lit .num⟩
  | .arr l => by
    unfold anyOk
    rw [any_elems isFloat l]
    exact ⟨fun h lit hl => by cases hl with | elem hv hn => exact h _ hv lit hn, fun h v hv lit hn => h lit (.elem hv hn)⟩
  | .obj m => by
    unfold anyOk
    rw [any_members isFloat m]
    exact ⟨fun h lit hl => by cases hl with | member hv hn => exact h _ hv lit hn, fun h x hv lit hn => h lit (.member hv hn)⟩
  | .null => ⟨fun _ _ hl => (by cases hl), fun _ => rfl⟩
  | .bool _ => ⟨fun _ _ hl => (by cases hl), fun _ => rfl⟩
  | .str _ => ⟨fun _ _ hl => (by cases hl), fun _ => rfl⟩
theorem any_elems (isFloat : Str → Bool) : ∀ l : JList,
    anyOkElems isFloat l = true ↔ ∀ v ∈ l.toList, ∀ lit, NumberIn lit v → isFloat lit = true
  | .nil => by simp [anyOkElems, JList.toList]
  | .cons v l => by
    simp only [anyOkElems, JList.toList, List.mem_cons, forall_eq_or_imp, Bool.and_eq_true, any_ok isFloat v, any_elems isFloat l]
theorem any_members (isFloat : Str → Bool) : ∀ m : JMembers,
    anyOkMembers isFloat m = true ↔ ∀ x ∈ m.toList, ∀ lit, NumberIn lit x.2 → isFloat lit = true
  | .nil => by simp [anyOkMembers, JMembers.toList]
  | .cons k v m => by
    simp only [anyOkMembers, JMembers.toList, List.mem_cons, forall_eq_or_imp, Bool.and_eq_true, any_ok isFloat v,
      any_members isFloat m]
end

theorem elems_ok (isFloat : Str → Bool) : ∀ l : JList,
    (∀ v ∈ l.toList, ∃ a, decAny isFloat v = some a) ↔ anyOkElems isFloat l = true
  | .nil => by simp [JList.toList, anyOkElems]
  | .cons v l => by
    simp only [JList.toList, List.mem_cons, forall_eq_or_imp, anyOkElems, Bool.and_eq_true, elems_ok isFloat l]
    apply and_congr _ Iff.rfl
    unfold decAny
    split <;> simp_all

theorem slice_ok (isFloat : Str → Bool) (v : JVal) : (∃ r, Json.decSlice (decAny isFloat) v = some r) ↔
    v = .null ∨ ∃ l, v = .arr l ∧ ∀ lit, NumberIn lit (.arr l) → isFloat lit = true := by
  cases v with
  | arr l =>
    have := any_ok isFloat (.arr l)
    unfold anyOk at this
    simp [Json.decSlice, Json.decElems_ok, elems_ok, this]
  | _ => simp [Json.decSlice]

theorem slice_some {isFloat : Str → Bool} {v : JVal} {r : List JVal} (h : Json.decSlice (decAny isFloat) v = some r) :
    (v = .null ∧ r = []) ∨ ∃ l, v = .arr l ∧ r = l.toList := by
  cases v with
  | null => exact Or.inl ⟨rfl, by simpa [Json.decSlice] using h.symm⟩
  | arr l =>
    refine Or.inr ⟨l, rfl, ?_⟩
    have h1 := Json.decElems_mem _ _ _ (by simpa only [Json.decSlice] using h)
    clear h
    generalize l.toList = l at h1
    induction l generalizing r with
    | nil => simpa using h1.symm
    | cons v l ih =>
      cases r with
      | nil => cases h1
      | cons x r =>
        simp only [List.map_cons, List.cons.injEq] at h1
        rw [ih h1.2, decAny_some h1.1]
  | _ => simp [Json.decSlice] at h

/-- How a file is decoded. -/
theorem decoded {isFloat : Str → Bool} {json : Str} {packages : JMembers} (hf : BunFile json packages) :
    ((Json.parse json).bind (decBunLockfile isFloat) = none ∧ ¬ BunTyped isFloat json packages) ∨
    BunTyped isFloat json packages ∧ ∃ ps, (Json.parse json).bind (decBunLockfile isFloat) = some (some (some ps)) ∧
      packages.toList.map (fun x => (x.1, Json.decSlice (decAny isFloat) x.2)) = ps.map (fun x => (x.1, some x.2)) := by
  obtain ⟨doc, hj, hk, hm, hd⟩ := hf
  have hdec : (Json.parse json).bind (decBunLockfile isFloat) =
      (Json.decMembers [g!"lockfileVersion", g!"packages"] (bunStep isFloat) doc.toList none).map some := by
    rw [hj]; rfl
  have hmap : ∀ v old, (∃ s, Json.decMap (Json.decSlice (decAny isFloat)) v old = some s) ↔
      v = .null ∨ ∃ o, v = .obj o ∧ ∀ k w, Member o k w → w = .null ∨ ∃ l, w = .arr l ∧ ∀ lit, NumberIn lit (.arr l) → isFloat lit = true := by
    intro v old
    cases v with
    | obj o =>
      simp only [Json.decMap, Option.map_eq_some_iff, reduceCtorEq, JVal.obj.injEq, exists_eq_left', false_or]
      have := Json.decEntries_ok (Json.decSlice (decAny isFloat)) o.toList (old.getD [])
      constructor
      · rintro ⟨s, m, h, _⟩ k w hw
        exact (slice_ok isFloat w).1 (this.1 ⟨m, h⟩ _ hw)
      · intro h
        obtain ⟨m, h⟩ := this.2 fun x hx => (slice_ok isFloat x.2).2 (h x.1 x.2 hx)
        exact ⟨_, m, h, rfl⟩
    | _ => simp [Json.decMap]
  have hok := Json.decMembers_ok (fields := [g!"lockfileVersion", g!"packages"]) (step := bunStep isFloat)
    (ok := fun f v => if f = g!"lockfileVersion" then IsInt v else
      v = .null ∨ ∃ o, v = .obj o ∧ ∀ k w, Member o k w → w = .null ∨ ∃ l, w = .arr l ∧ ∀ lit, NumberIn lit (.arr l) → isFloat lit = true)
    (by
      intro f hf v s
      unfold bunStep
      by_cases h : f = g!"lockfileVersion"
      · rw [if_pos h]
        simp only [if_pos h]
        rw [← Json.decInt_ok]
        simp [Option.map_eq_some_iff]
      · rw [if_neg h]
        simp only [if_neg h]
        exact hmap v s) doc.toList hk.2 none
  have htyped : BunTyped isFloat json packages ↔ ∀ f ∈ [g!"lockfileVersion", g!"packages"], ∀ v, (f, v) ∈ doc.toList →
      if f = g!"lockfileVersion" then IsInt v else
      v = .null ∨ ∃ o, v = .obj o ∧ ∀ k w, Member o k w → w = .null ∨ ∃ l, w = .arr l ∧ ∀ lit, NumberIn lit (.arr l) → isFloat lit = true := by
    constructor
    · rintro ⟨h1, h2⟩ f hf v hv
      by_cases h : f = g!"lockfileVersion"
      · subst h; rw [if_pos rfl]; exact h1 doc hj v hv
      · rw [if_neg h]
        have : f = g!"packages" := by simpa [h] using hf
        subst this
        rw [Json.key_unique hk.1 hv hm]
        exact Or.inr ⟨packages, rfl, h2⟩
    · intro h
      refine ⟨fun doc' hj' v hv => ?_, fun k v hv => ?_⟩
      · rw [hj] at hj'
        injection hj' with hj'; injection hj' with hj'; subst hj'
        simpa using h g!"lockfileVersion" (by simp) v hv
      · have := h g!"packages" (by simp) _ hm
        rw [if_neg (by decide)] at this
        rcases this with h | ⟨o, h, ho⟩
        · cases h
        · injection h with h; subst h; exact ho k v hv
  rw [hdec, htyped, ← hok]
  cases hr : Json.decMembers [g!"lockfileVersion", g!"packages"] (bunStep isFloat) doc.toList none with
  | none => exact Or.inl ⟨rfl, by simp⟩
  | some l =>
    refine Or.inr ⟨⟨l, rfl⟩, ?_⟩
    have h1 := Json.decMembers_field (fields := [g!"lockfileVersion", g!"packages"]) (step := bunStep isFloat) g!"packages" id
      (Json.decMap (Json.decSlice (decAny isFloat))) (by simp)
      (by intro v s s' h; unfold bunStep at h; rw [if_neg (by decide)] at h; exact h)
      (by
        intro g hg hne v s s' h
        have : g = g!"lockfileVersion" := by simpa [hne] using hg
        unfold bunStep at h
        rw [if_pos this] at h
        obtain ⟨_, _, h⟩ := Option.map_eq_some_iff.1 h
        exact h.symm)
      doc.toList hk.1 hk.2 none l hr
    rcases h1 with ⟨v, hv, h1⟩ | ⟨hno, _⟩
    · rw [Json.key_unique hk.1 hv hm] at h1
      simp only [Json.decMap, id_eq, Option.getD_none] at h1
      obtain ⟨ps, h2, rfl⟩ := Option.map_eq_some_iff.1 h1
      obtain ⟨xs, e, h3⟩ := Json.decEntries_list _ _ _ _ h2 hd (by simp)
      rw [List.nil_append] at e
      subst e
      exact ⟨ps, rfl, h3⟩
    · exact absurd hm (hno _)

/-- The loop over tuples that are not empty. -/
theorem loop_entries (isFloat : Str → Bool) (items : List (Str × JVal)) (xs : SMap (List JVal))
    (h : items.map (fun x => (x.1, Json.decSlice (decAny isFloat) x.2)) = xs.map (fun x => (x.1, some x.2)))
    (hne : ∀ x ∈ items, x.2 ≠ .null ∧ x.2 ≠ .arr .nil) : ∃ pkgs, bunLoop xs = some pkgs ∧ Entries BunPackage items pkgs := by
  induction items generalizing xs with
  | nil =>
    cases xs with
    | nil => exact ⟨[], rfl, .nil⟩
    | cons x xs => cases h
  | cons y items ih =>
    cases xs with
    | nil => cases h
    | cons x xs =>
      obtain ⟨k, v⟩ := y
      obtain ⟨k', t⟩ := x
      simp only [List.map_cons, List.cons.injEq, Prod.mk.injEq] at h
      obtain ⟨pkgs, hl, he⟩ := ih xs h.2 (fun x hx => hne x (by simp [hx]))
      obtain ⟨n1, n2⟩ := hne (k, v) (by simp)
      dsimp only at n1 n2
      unfold bunLoop
      rw [hl]
      rcases slice_some h.1.2 with ⟨e, _⟩ | ⟨l, rfl, rfl⟩
      · exact absurd e n1
      · cases l with
        | nil => exact absurd rfl n2
        | cons w rest =>
          by_cases hs : ∃ s, w = .str s ∧ s ≠ []
          · obtain ⟨s, rfl, hs⟩ := hs
            obtain ⟨p, hp⟩ := head_exists s hs
            obtain ⟨e, hn, hpe⟩ := head_spec rest.toList hp
            refine ⟨p :: pkgs, ?_, .keep ⟨s, rest, rfl, hp⟩ he⟩
            simp only [JList.toList]
            rw [e]
            simp only [Option.bind_some, hn, decide_false, Bool.false_and, Bool.false_eq_true, if_false, Option.map_some]
            rw [hpe]
            rfl
          · refine ⟨pkgs, ?_, .skip ?_ he⟩
            · simp only [JList.toList]
              have e : structurePackageDetails (w :: rest.toList) = some ([], [], []) := by
                cases w with
                | str s =>
                  have : s = [] := by
                    cases s with
                    | nil => rfl
                    | cons c s => exact absurd ⟨_, rfl, by simp⟩ hs
                  subst this
                  rfl
                | _ => rfl
              rw [e]
              simp
            · rintro p ⟨head, r, e, hp⟩
              simp only [JVal.arr.injEq, JList.cons.injEq] at e
              refine hs ⟨head, e.1, ?_⟩
              rintro rfl
              exact head_nil p hp

theorem loop_panic (isFloat : Str → Bool) (items : List (Str × JVal)) (xs : SMap (List JVal))
    (h : items.map (fun x => (x.1, Json.decSlice (decAny isFloat) x.2)) = xs.map (fun x => (x.1, some x.2)))
    (hne : ∃ x ∈ items, x.2 = .null ∨ x.2 = .arr .nil) : bunLoop xs = none := by
  induction items generalizing xs with
  | nil => obtain ⟨x, hx, _⟩ := hne; cases hx
  | cons y items ih =>
    cases xs with
    | nil => cases h
    | cons x xs =>
      obtain ⟨k, v⟩ := y
      obtain ⟨k', t⟩ := x
      simp only [List.map_cons, List.cons.injEq, Prod.mk.injEq] at h
      unfold bunLoop
      by_cases hv : v = .null ∨ v = .arr .nil
      · have : t = [] := by
          rcases slice_some h.1.2 with ⟨_, e⟩ | ⟨l, e, e'⟩
          · exact e
          · rcases hv with hv | hv
            · rw [hv] at e; cases e
            · rw [hv] at e; injection e with e; rw [e', ← e]; rfl
        subst this
        rfl
      · have : bunLoop xs = none := by
          refine ih xs h.2 ?_
          obtain ⟨x, hx, hxe⟩ := hne
          rcases List.mem_cons.1 hx with rfl | hx
          · exact absurd hxe hv
          · exact ⟨x, hx, hxe⟩
        rw [this]
        cases structurePackageDetails t with
        | none => rfl
        | some d => simp

end Bun

/-- The heads of the different forms, and nothing else, yield the packages they stand for. -/
theorem C54_heads (head : Str) (rest : List JVal) (p : PackageDetails) (h : BunHead head p) :
    structurePackageDetails (.str head :: rest) = some (p.name, p.version, p.commit) :=
  (Bun.head_spec rest h).1

/-- Every head but the empty one has exactly one form. -/
theorem C54_forms (head : Str) : (head ≠ [] ↔ ∃ p, BunHead head p) ∧ ∀ p q, BunHead head p → BunHead head q → p = q :=
  ⟨⟨Bun.head_exists head, fun ⟨p, h⟩ e => by subst e; exact Bun.head_nil p h⟩, fun _ _ => Bun.head_unique⟩

/-- Every tuple with a text at its head is reported once, all other tuples are skipped. -/
def C54_full : Prop :=
  ∀ (toJSON : Str → Str) (isFloat : Str → Bool) (iter : SMap (List JVal) → SMap (List JVal)), (∀ l, (iter l).Perm l) →
    ∀ (content : Str) (packages : JMembers), BunFile (toJSON content) packages → BunTyped isFloat (toJSON content) packages →
    ∃ pkgs items, parseBunLock toJSON isFloat iter (some content) = some (pkgs, false) ∧ items.Perm packages.toList ∧
      Entries BunPackage items pkgs

/-- The claim for files without empty tuples. What is missing: empty tuples, for which it is false. -/
theorem C54_partial (toJSON : Str → Str) (isFloat : Str → Bool) (iter : SMap (List JVal) → SMap (List JVal))
    (hi : ∀ l, (iter l).Perm l) (content : Str) (packages : JMembers) (hf : BunFile (toJSON content) packages)
    (ht : BunTyped isFloat (toJSON content) packages) (hne : ∀ k v, Member packages k v → v ≠ .null ∧ v ≠ .arr .nil) :
    ∃ pkgs items, parseBunLock toJSON isFloat iter (some content) = some (pkgs, false) ∧ items.Perm packages.toList ∧
      Entries BunPackage items pkgs := by
  unfold parseBunLock
  dsimp only
  rcases Bun.decoded (isFloat := isFloat) hf with ⟨_, h⟩ | ⟨_, ps, hd, hps⟩
  · exact absurd ht h
  · rw [hd]
    obtain ⟨items, hp, hm⟩ := perm_map_lift (((hi ps).map (fun x => (x.1, some x.2)))) packages.toList hps.symm
    obtain ⟨pkgs, hl, he⟩ := Bun.loop_entries isFloat items (iter ps) hm (fun x hx => hne x.1 x.2 (hp.mem_iff.1 hx))
    refine ⟨pkgs, items, ?_, hp, he⟩
    simp only [Option.getD_some]
    rw [hl]
    rfl

/-- The program panics exactly if there is an empty tuple. -/
theorem C54_panic_iff (toJSON : Str → Str) (isFloat : Str → Bool) (iter : SMap (List JVal) → SMap (List JVal))
    (hi : ∀ l, (iter l).Perm l) (content : Str) (packages : JMembers) (hf : BunFile (toJSON content) packages)
    (ht : BunTyped isFloat (toJSON content) packages) :
    parseBunLock toJSON isFloat iter (some content) = none ↔ ∃ k v, Member packages k v ∧ (v = .null ∨ v = .arr .nil) := by
  constructor
  · intro h
    apply Classical.byContradiction
    intro hc
    obtain ⟨pkgs, items, h', _⟩ := C54_partial toJSON isFloat iter hi content packages hf ht fun k v hm =>
      ⟨fun e => hc ⟨k, v, hm, Or.inl e⟩, fun e => hc ⟨k, v, hm, Or.inr e⟩⟩
    rw [h] at h'
    cases h'
  · rintro ⟨k, v, hm, hv⟩
    unfold parseBunLock
    dsimp only
    rcases Bun.decoded (isFloat := isFloat) hf with ⟨_, h⟩ | ⟨_, ps, hd, hps⟩
    · exact absurd ht h
    · rw [hd]
      obtain ⟨items, hp, hmi⟩ := perm_map_lift (((hi ps).map (fun x => (x.1, some x.2)))) packages.toList hps.symm
      simp only [Option.getD_some]
      rw [Bun.loop_panic isFloat items (iter ps) hmi ⟨(k, v), hp.mem_iff.2 hm, hv⟩]
      rfl

/-- A file with a member of the wrong type is an error. -/
theorem C54_untyped (toJSON : Str → Str) (isFloat : Str → Bool) (iter : SMap (List JVal) → SMap (List JVal))
    (content : Str) (packages : JMembers) (hf : BunFile (toJSON content) packages)
    (ht : ¬ BunTyped isFloat (toJSON content) packages) : parseBunLock toJSON isFloat iter (some content) = some ([], true) := by
  unfold parseBunLock
  dsimp only
  rcases Bun.decoded (isFloat := isFloat) hf with ⟨h, _⟩ | ⟨h, _⟩
  · rw [h]
  · exact absurd h ht

/-- `packages` with an empty tuple. -/
def C54_witness : JMembers := .cons g!"a" (.arr .nil) .nil

theorem C54_counterexample : ¬ C54_full := by
  intro h
  obtain ⟨pkgs, items, h1, _⟩ := h id (fun _ => true) id (fun _ => List.Perm.refl _)
    (Json.render (.obj (.cons g!"packages" (.obj C54_witness) .nil))) C54_witness
    ⟨_, Json.parse_render _ (by simp [Json.JOk, Json.JOkM, Json.JOkL, C54_witness]), by
      unfold PlainKeys DistinctKeys; simp [JMembers.toList]; decide, by simp [Member, JMembers.toList], by
      simp [DistinctKeys, C54_witness, JMembers.toList]⟩
    ⟨by
      intro doc hd v hv
      rw [id, Json.parse_render _ (by simp [Json.JOk, Json.JOkM, Json.JOkL, C54_witness])] at hd
      injection hd with hd; injection hd with hd; subst hd
      simp [Member, JMembers.toList] at hv, by
      intro k v hv
      simp only [Member, C54_witness, JMembers.toList, List.mem_cons, Prod.mk.injEq, List.not_mem_nil, or_false] at hv
      exact Or.inr ⟨.nil, hv.2, fun _ _ => rfl⟩⟩
  revert h1
  have : parseBunLock id (fun _ => true) id (some (Json.render (.obj (.cons g!"packages" (.obj C54_witness) .nil)))) = none := by
    decide +kernel
  rw [this]
  intro h1
  cases h1

/-- `packages` with a scoped package, one from git, a file and a tuple without text. -/
def C54_sample : JMembers :=
  .cons g!"a" (.arr (.cons (.str g!"@s/a@1.0") .nil)) (.cons g!"b" (.arr (.cons (.str g!"b@github:x/b#abc") .nil))
    (.cons g!"c" (.arr (.cons (.str g!"c@file:../c") .nil)) (.cons g!"d" (.arr (.cons (.bool true) .nil)) .nil)))

-- the hypotheses of `C54_partial` hold for it
example : BunFile (Json.render (.obj (.cons g!"packages" (.obj C54_sample) .nil))) C54_sample ∧
    BunTyped (fun _ => true) (Json.render (.obj (.cons g!"packages" (.obj C54_sample) .nil))) C54_sample ∧
    ∀ k v, Member C54_sample k v → v ≠ .null ∧ v ≠ .arr .nil := by
  have hok : Json.JOk (.obj (.cons g!"packages" (.obj C54_sample) .nil)) := by
    simp [Json.JOk, Json.JOkM, Json.JOkL, C54_sample]
  have hmem : ∀ k v, Member C54_sample k v → ∃ w, v = .arr (.cons w .nil) ∧ (w = .bool true ∨ ∃ s, w = .str s) := by
    intro k v hv
    simp only [Member, C54_sample, JMembers.toList, List.mem_cons, Prod.mk.injEq, List.not_mem_nil, or_false] at hv
    rcases hv with ⟨_, rfl⟩ | ⟨_, rfl⟩ | ⟨_, rfl⟩ | ⟨_, rfl⟩ <;> simp
  refine ⟨⟨_, Json.parse_render _ hok, by unfold PlainKeys DistinctKeys; simp [JMembers.toList]; decide,
    by simp [Member, JMembers.toList], by simp [DistinctKeys, C54_sample, JMembers.toList]⟩, ⟨?_, ?_⟩, ?_⟩
  · intro doc hd v hv
    rw [Json.parse_render _ hok] at hd
    injection hd with hd; injection hd with hd; subst hd
    simp [Member, JMembers.toList] at hv
  · intro k v hv
    obtain ⟨w, rfl, hw⟩ := hmem k v hv
    refine Or.inr ⟨_, rfl, ?_⟩
    intros; rfl
  · intro k v hv
    obtain ⟨w, rfl, hw⟩ := hmem k v hv
    simp

example : BunHead g!"@s/a@1.0" (npm g!"@s/a" g!"1.0" []) :=
  .version (name := g!"@s/a") (version := g!"1.0") ⟨'@', g!"s/a", rfl, by decide⟩ (by decide) (by intro r e; simp at e)
example : BunHead g!"b@github:x/b#abc" (npm g!"b" [] g!"abc") :=
  .commit (name := g!"b") (source := g!"github:x/b") (commit := g!"abc") ⟨'b', [], rfl, by decide⟩ (by decide) (by decide)

end Osv
