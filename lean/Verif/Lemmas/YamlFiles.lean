import Verif.Lemmas.Yaml
import Verif.Spec.YamlFiles
/-! # Files in YAML: lemmas -/
namespace Osv.YamlFile
open Str Spec Yaml

theorem bind_isSome {α β : Type} {o : Option α} {f : α → Option β} : (o.bind f).isSome ↔ ∃ a, o = some a ∧ (f a).isSome := by
  cases o <;> simp

theorem isSome_of {α : Type} {o : Option α} {a : α} (h : o = some a) : o.isSome := by
  rw [h]; rfl

theorem text_shape {n : YNode} {fs : List (Str × YNode)} (h : fields n = some fs) (k : Str) :
    (∃ s, text (at_ fs k) = some s) ↔ ∀ v, YEntry n k v → YIsText v := by
  rw [← field_shape text_isSome null_text h, Option.isSome_iff_exists]

theorem resolution_isSome (n : YNode) : (yamlResolution n).isSome ↔
    YIsStruct [(g!"tarball", YIsText), (g!"commit", YIsText), (g!"repo", YIsText), (g!"type", YIsText)] n := by
  refine struct_isSome _ fun fs h => ?_
  simp only [List.mem_cons, List.not_mem_nil, or_false, forall_eq_or_imp, forall_eq, ← text_shape h]
  simp only [Option.bind_eq_bind, bind_isSome, Option.isSome_some, and_true, exists_and_right]

theorem pnpmPackage_isSome (n : YNode) : (yamlPnpmPackage n).isSome ↔ PnpmPackageShape n := by
  refine struct_isSome _ fun fs h => ?_
  simp only [List.mem_cons, List.not_mem_nil, or_false, forall_eq_or_imp, forall_eq, ← text_shape h,
    ← field_shape resolution_isSome (null_struct _) h, Option.isSome_iff_exists]
  simp only [Option.bind_eq_bind, Option.bind_eq_some_iff]
  constructor
  · rintro ⟨_, _, h1, _, h2, _, h3, _⟩
    exact ⟨⟨_, h1⟩, ⟨_, h2⟩, ⟨_, h3⟩⟩
  · rintro ⟨⟨_, h1⟩, ⟨_, h2⟩, ⟨_, h3⟩⟩
    exact ⟨_, _, h1, _, h2, _, h3, rfl⟩

/-- What is read of a pnpm package is what it says. -/
theorem pnpmPackage_says {n : YNode} {p : PnpmLockPackage} (h : yamlPnpmPackage n = some p) (q : PnpmLockPackage) :
    PnpmPackageSays n q ↔ q = p := by
  unfold yamlPnpmPackage at h
  simp only [Option.bind_eq_bind, Option.bind_eq_some_iff] at h
  obtain ⟨fs, hf, r, hr, s1, h1, s2, h2, e⟩ := h
  cases e
  unfold yamlResolution at hr
  simp only [Option.bind_eq_bind, Option.bind_eq_some_iff] at hr
  obtain ⟨gs, hg, t1, g1, t2, g2, _, _, _, _, e⟩ := hr
  cases e
  have e1 : ∀ t, YText n [g!"resolution", g!"tarball"] t ↔ t = t1 := by
    intro t
    rw [text_step hf, text_field hg g1]
  have e2 : ∀ t, YText n [g!"resolution", g!"commit"] t ↔ t = t2 := by
    intro t
    rw [text_step hf, text_field hg g2]
  constructor
  · rintro ⟨a, b, c, d⟩
    rw [e1] at a
    rw [e2] at b
    rw [text_field hf h1] at c
    rw [text_field hf h2] at d
    cases q
    subst a b c d
    rfl
  · rintro rfl
    exact ⟨(e1 _).2 rfl, (e2 _).2 rfl, (text_field hf h1 _).2 rfl, (text_field hf h2 _).2 rfl⟩

/-- The entries of the map under a key. -/
theorem entries {n : YNode} {fs : List (Str × YNode)} (h : fields n = some fs) (a k : Str) (v : YNode) :
    YAt n [a, k] v ↔ YEntry (at_ fs a) k v := by
  constructor
  · rintro (_ | ⟨he, _ | ⟨he', ha⟩⟩)
    cases at_nil.1 ha
    rw [at_entry h he]
    exact he'
  · intro he'
    rcases at_cases h a with he | ⟨_, e⟩
    · exact .step he (.step he' (.here _))
    · rw [e] at he'
      obtain ⟨_, e, _⟩ := he'
      cases e

theorem pnpm_isSome (nine : Str → Option Bool) (n : YNode) : (yamlPnpm nine n).isSome ↔
    PnpmShape n ∧ ∃ s, YText n [g!"lockfileVersion"] s ∧ (nine s).isSome := by
  have key : PnpmShape n ↔ ((fields n).bind fun fs => (text (at_ fs g!"lockfileVersion")).bind fun _ =>
      mapOf yamlPnpmPackage (at_ fs g!"packages")).isSome := by
    refine (struct_isSome _ fun fs h => ?_).symm
    simp only [List.mem_cons, List.not_mem_nil, or_false, forall_eq_or_imp, forall_eq, ← text_shape h,
      ← field_shape (mapOf_isSome pnpmPackage_isSome) (null_mapOf _) h, bind_isSome, exists_and_right]
  rw [key]
  unfold yamlPnpm
  simp only [Option.bind_eq_bind, bind_isSome]
  simp only [Option.isSome_iff_exists, Option.some.injEq]
  constructor
  · rintro ⟨fs, hf, s, hs, ps, hp, b, hb, _⟩
    exact ⟨⟨fs, hf, s, hs, ps, hp⟩, s, (text_field hf hs _).2 rfl, b, hb⟩
  · rintro ⟨⟨fs, hf, s, hs, ps, hp⟩, t, ht, b, hb⟩
    rw [(text_field hf hs _).1 ht] at hb
    exact ⟨fs, hf, s, hs, ps, hp, b, hb, _, rfl⟩

theorem pnpm_says {nine : Str → Option Bool} {n : YNode} {l : PnpmLockfile} (h : yamlPnpm nine n = some l) : PnpmSays nine n l := by
  unfold yamlPnpm at h
  simp only [Option.bind_eq_bind, Option.bind_eq_some_iff] at h
  obtain ⟨fs, hf, s, hs, ps, hp, b, hb, e⟩ := h
  cases e
  refine ⟨⟨s, (text_field hf hs _).2 rfl, hb⟩, mapOf_nodup hp, fun k p => ?_⟩
  have hall := (mapOf_isSome pnpmPackage_isSome (at_ fs g!"packages")).1 (isSome_of hp)
  simp only [entries hf]
  rw [mem_mapOf hp]
  refine exists_congr fun v => and_congr_right fun he => ?_
  have : (yamlPnpmPackage v).isSome := by
    rw [pnpmPackage_isSome]
    rcases hall with ⟨_, e⟩ | ⟨_, _, _, h⟩
    · rw [e] at he
      obtain ⟨_, e, _⟩ := he
      cases e
    · exact h k v he
  obtain ⟨p', hp'⟩ := Option.isSome_iff_exists.1 this
  rw [hp', pnpmPackage_says hp', Option.some.injEq, eq_comm]

theorem description_isSome (n : YNode) : (yamlDescription n).isSome ↔
    YIsStruct [(g!"name", YIsText), (g!"url", YIsText), (g!"path", YIsText), (g!"resolved-ref", YIsText)] n := by
  refine struct_isSome _ fun fs h => ?_
  simp only [List.mem_cons, List.not_mem_nil, or_false, forall_eq_or_imp, forall_eq, ← text_shape h]
  simp only [Option.bind_eq_bind, bind_isSome, Option.isSome_some, and_true, exists_and_right]

/-- A description never decodes as a null string. -/
theorem described_not_null {n : YNode} {d : PubspecNode} (h : yamlDescribed n = some d) : d.asString ≠ some none := by
  unfold yamlDescribed at h
  split at h
  · cases h
  · rename_i hn
    cases h
    intro e
    unfold yamlPointer at e
    split at e
    · exact hn _ rfl
    · cases e
    · cases e

/-- The result of decoding a description. -/
theorem described_decode (n : YNode) : ((yamlDescribed n).map PubspecNode.decode).getD (.ok {}) ≠ .panic ∧
    (((yamlDescribed n).map PubspecNode.decode).getD (.ok {}) ≠ .error ↔ DescriptionShape n) ∧
    ∀ d, ((yamlDescribed n).map PubspecNode.decode).getD (.ok {}) = .ok d → ∀ t, YText n [g!"resolved-ref"] t ↔ t = d.ref := by
  unfold DescriptionShape
  rw [← description_isSome, ← text_isSome]
  have nopath : ∀ s b t, YText (.scalar s b) [g!"resolved-ref"] t ↔ t = [] := by
    intro s b t
    constructor
    · rintro (h | h)
      · obtain _ | ⟨⟨_, e, _⟩, _⟩ := h
        cases e
      · exact h.2
    · rintro rfl
      refine .inr ⟨?_, rfl⟩
      rintro t (_ | ⟨⟨_, e, _⟩, _⟩)
      cases e
  match n with
  | .scalar s true =>
    refine ⟨by simp [yamlDescribed], by simp [yamlDescribed, text], ?_⟩
    intro d hd t
    simp [yamlDescribed] at hd
    subst hd
    rw [nopath]
  | .scalar s false =>
    refine ⟨by simp [yamlDescribed, yamlDescription, fields, yamlPointer, PubspecNode.decode],
      by simp [yamlDescribed, text, yamlDescription, fields, yamlPointer, PubspecNode.decode], ?_⟩
    intro d hd t
    simp [yamlDescribed, yamlDescription, fields, yamlPointer, PubspecNode.decode] at hd
    subst hd
    rw [nopath]
  | .seq l => simp [yamlDescribed, text, yamlDescription, fields, yamlPointer, PubspecNode.decode]
  | .map es =>
    simp only [yamlDescribed, Option.map_some, Option.getD_some, yamlPointer, text, Option.isSome_none, Bool.false_eq_true, false_or,
      PubspecNode.decode]
    cases hd : yamlDescription (.map es) with
    | none => simp
    | some d =>
      refine ⟨by simp, by simp, ?_⟩
      intro d' e t
      cases e
      unfold yamlDescription at hd
      simp only [Option.bind_eq_bind, Option.bind_eq_some_iff] at hd
      obtain ⟨fs, hf, s1, h1, s2, h2, s3, h3, s4, h4, e⟩ := hd
      cases e
      exact text_field hf h4 t

/-- Decoding the descriptions. -/
theorem descriptions_ok {l : SMap PubspecPackage} {r : SMap (Str × PubspecDescription)} (h : pubspecDescriptions l = .ok r) (k : Str)
    (v : Str) (d : PubspecDescription) : (k, v, d) ∈ r ↔ ∃ p, (k, p) ∈ l ∧ p.version = v ∧
      (p.description.map PubspecNode.decode).getD (.ok {}) = .ok d := by
  induction l generalizing r with
  | nil =>
    cases h
    simp
  | cons x l ih =>
    obtain ⟨k', p⟩ := x
    simp only [pubspecDescriptions] at h
    split at h
    · cases h
    · cases h
    · rename_i d' hd
      split at h
      · cases h
      · cases h
      · rename_i r' hr
        cases h
        simp only [List.mem_cons, Prod.mk.injEq, ih hr]
        constructor
        · rintro (⟨rfl, rfl, rfl⟩ | ⟨p', hm, h⟩)
          · exact ⟨p, .inl ⟨rfl, rfl⟩, rfl, hd⟩
          · exact ⟨p', .inr hm, h⟩
        · rintro ⟨p', ⟨rfl, rfl⟩ | hm, h1, h2⟩
          · rw [hd] at h2
            cases h2
            exact .inl ⟨rfl, h1.symm, rfl⟩
          · exact .inr ⟨p', hm, h1, h2⟩

theorem descriptions_no_panic {l : SMap PubspecPackage}
    (h : ∀ x ∈ l, (x.2.description.map PubspecNode.decode).getD (.ok {}) ≠ .panic) : pubspecDescriptions l ≠ .panic := by
  induction l with
  | nil => simp [pubspecDescriptions]
  | cons x l ih =>
    obtain ⟨k', p⟩ := x
    have h1 := h (k', p) (by simp)
    have ih := ih fun x hx => h x (by simp [hx])
    simp only [pubspecDescriptions]
    cases he : (p.description.map PubspecNode.decode).getD (.ok {}) with
    | panic => exact absurd he h1
    | error => simp
    | ok d => cases hd : pubspecDescriptions l <;> simp_all

theorem descriptions_is_ok {l : SMap PubspecPackage} : (∃ r, pubspecDescriptions l = .ok r) ↔
    ∀ x ∈ l, ∃ d, (x.2.description.map PubspecNode.decode).getD (.ok {}) = .ok d := by
  induction l with
  | nil => simp [pubspecDescriptions]
  | cons x l ih =>
    obtain ⟨k', p⟩ := x
    simp only [List.mem_cons, forall_eq_or_imp, ← ih, pubspecDescriptions]
    cases (p.description.map PubspecNode.decode).getD (.ok {}) with
    | panic => simp
    | error => simp
    | ok d => cases pubspecDescriptions l <;> simp

/-- A package of which everything but the description decodes. -/
theorem pubspecPackage_some {n : YNode} {p : PubspecPackage} (h : yamlPubspecPackage n = some p) :
    (∀ t, YText n [g!"version"] t ↔ t = p.version) ∧ ∃ fs, fields n = some fs ∧ p.description = yamlDescribed (at_ fs g!"description") := by
  unfold yamlPubspecPackage at h
  simp only [Option.bind_eq_bind, Option.bind_eq_some_iff] at h
  obtain ⟨fs, hf, _, _, s, hs, e⟩ := h
  cases e
  exact ⟨text_field hf hs, fs, hf, rfl⟩

theorem pubspecPackage_shape (n : YNode) :
    (∃ p, yamlPubspecPackage n = some p ∧ ∃ d, (p.description.map PubspecNode.decode).getD (.ok {}) = .ok d) ↔ PubspecPackageShape n := by
  have ok : ∀ n, (∃ d, ((yamlDescribed n).map PubspecNode.decode).getD (.ok {}) = .ok d) ↔ DescriptionShape n := by
    intro n
    obtain ⟨h1, h2, _⟩ := described_decode n
    rw [← h2]
    cases h : ((yamlDescribed n).map PubspecNode.decode).getD (.ok {}) with
    | panic => exact absurd h h1
    | error => simp
    | ok d => simp
  have key : PubspecPackageShape n ↔ ((fields n).bind fun fs => (text (at_ fs g!"source")).bind fun _ =>
      (text (at_ fs g!"version")).bind fun _ => match ((yamlDescribed (at_ fs g!"description")).map PubspecNode.decode).getD (.ok {}) with
        | .ok d => some d
        | _ => none).isSome := by
    refine (struct_isSome _ fun fs h => ?_).symm
    have hd := field_shape (d := fun n => match ((yamlDescribed n).map PubspecNode.decode).getD (.ok {}) with
        | .ok d => some d
        | _ => none) (P := DescriptionShape) (by
          intro n
          rw [← ok]
          cases ((yamlDescribed n).map PubspecNode.decode).getD (.ok {}) <;> simp) (.inl null_text) h g!"description"
    simp only [List.mem_cons, List.not_mem_nil, or_false, forall_eq_or_imp, forall_eq, ← text_shape h, ← hd, bind_isSome]
    constructor
    · rintro ⟨_, h1, _, h2, h3⟩
      exact ⟨⟨_, h1⟩, h3, _, h2⟩
    · rintro ⟨⟨_, h1⟩, h3, _, h2⟩
      exact ⟨_, h1, _, h2, h3⟩
  rw [key]
  unfold yamlPubspecPackage
  simp only [Option.bind_eq_bind, bind_isSome, Option.bind_eq_some_iff]
  constructor
  · rintro ⟨p, ⟨fs, hf, s, hs, v, hv, e⟩, d, hd⟩
    cases e
    exact ⟨fs, hf, s, hs, v, hv, by dsimp only at hd; rw [hd]; rfl⟩
  · rintro ⟨fs, hf, s, hs, v, hv, h⟩
    refine ⟨_, ⟨fs, hf, s, hs, v, hv, rfl⟩, ?_⟩
    dsimp only
    revert h
    cases ((yamlDescribed (at_ fs g!"description")).map PubspecNode.decode).getD (.ok {}) <;> simp

theorem rawDB_isSome (n : YNode) : (yamlRawDB n).isSome ↔ RawDBShape n := by
  refine struct_isSome _ fun fs h => ?_
  simp only [List.mem_cons, List.not_mem_nil, or_false, forall_eq_or_imp, forall_eq, ← text_shape h]
  simp only [Option.bind_eq_bind, bind_isSome, Option.isSome_some, and_true, exists_and_right]

theorem rawDB_says {n : YNode} {d : RawDB} (h : yamlRawDB n = some d) : RawDBSays n d := by
  unfold yamlRawDB at h
  simp only [Option.bind_eq_bind, Option.bind_eq_some_iff] at h
  obtain ⟨fs, hf, s1, h1, s2, h2, s3, h3, s4, h4, e⟩ := h
  cases e
  exact ⟨(text_field hf h1 _).2 rfl, (text_field hf h2 _).2 rfl, (text_field hf h3 _).2 rfl, (text_field hf h4 _).2 rfl⟩

theorem config_isSome (n : YNode) : (yamlConfig n).isSome ↔ ConfigShape n := by
  refine struct_isSome _ fun fs h => ?_
  simp only [List.mem_cons, List.not_mem_nil, or_false, forall_eq_or_imp, forall_eq,
    ← field_shape (listOf_isSome text_isSome) (null_listOf _) h, ← field_shape (listOf_isSome rawDB_isSome) (null_listOf _) h]
  simp only [Option.bind_eq_bind, bind_isSome, Option.isSome_some, and_true, exists_and_right]
  simp only [Option.isSome_iff_exists]

theorem each_mono {α β : Type} {R R' : α → β → Prop} (h : ∀ a b, R a b → R' a b) {l : List α} {m : List β} (e : Each R l m) :
    Each R' l m := by
  induction e with
  | nil => exact .nil
  | cons hr _ ih => exact .cons (h _ _ hr) ih

theorem config_says {n : YNode} {c : RawConfig} (h : yamlConfig n = some c) : ConfigSays n c := by
  unfold yamlConfig at h
  simp only [Option.bind_eq_bind, Option.bind_eq_some_iff] at h
  obtain ⟨fs, hf, is, h1, ds, h2, e⟩ := h
  cases e
  obtain ⟨l1, hl1, he1⟩ := listOf_field hf h1
  obtain ⟨l2, hl2, he2⟩ := listOf_field hf h2
  exact ⟨⟨l1, hl1, each_mono (fun v s h => (text_here h _).2 rfl) he1⟩, ⟨l2, hl2, each_mono (fun _ _ h => rawDB_says h) he2⟩⟩

end Osv.YamlFile
