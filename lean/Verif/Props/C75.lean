import Verif.Props.C56
/-!
# C75: YAML files say what is read of them

For every document, as a tree of nodes: when it is refused, and that otherwise every value read is the one at its place: a missing or
null value is empty, and everything else in the document has no influence. Stated for pnpm-lock.yaml, pubspec.lock and the config.
-/
namespace Osv
open Str Spec

/-- pnpm-lock.yaml: a document that is not null is accepted exactly if it has the shape and its version is a number. -/
theorem C75_pnpm_accepted (nine : Str → Option Bool) (yaml : YamlReader) (content : Str) (n : YNode) (h : yaml content = some (some n))
    (h0 : ¬ YNull n) :
    (pnpmDecode nine yaml content).isSome ↔ PnpmShape n ∧ ∃ s, YText n [g!"lockfileVersion"] s ∧ (nine s).isSome := by
  rw [← YamlFile.pnpm_isSome]
  unfold pnpmDecode
  rw [h]
  split
  · rename_i e; cases e
  · rename_i e; cases e
  · rename_i e
    cases e
    exact absurd ⟨_, rfl⟩ h0
  · rename_i e
    cases e
    simp

/-- pnpm-lock.yaml: what is read is what the document says. -/
theorem C75_pnpm_read (nine : Str → Option Bool) (yaml : YamlReader) (content : Str) (l : PnpmLockfile)
    (h : pnpmDecode nine yaml content = some (some l)) : ∃ n, yaml content = some (some n) ∧ PnpmSays nine n l := by
  unfold pnpmDecode at h
  split at h
  · cases h
  · cases h
  · cases h
  · rename_i n _ hn
    rw [Option.map_eq_some_iff] at h
    obtain ⟨l', h, e⟩ := h
    cases e
    exact ⟨n, hn, YamlFile.pnpm_says h⟩

/-- Nothing is read of an empty document or null, and only of those. -/
theorem C75_pnpm_nothing (nine : Str → Option Bool) (yaml : YamlReader) (content : Str) :
    pnpmDecode nine yaml content = some none ↔ yaml content = some none ∨ ∃ n, yaml content = some (some n) ∧ YNull n := by
  unfold pnpmDecode
  split
  · rename_i e; rw [e]; simp
  · rename_i e; rw [e]; simp
  · rename_i e; rw [e]; simp [YNull]
  · rename_i n hn e
    rw [e]
    simp only [Option.map_eq_some_iff, reduceCtorEq, and_false, exists_false, Option.some.injEq, exists_eq_left', false_or, false_iff]
    rintro ⟨s, rfl⟩
    exact hn s rfl

namespace YamlFile

theorem pubspec_parts {n : YNode} (r : SMap PubspecPackage) (h : yamlPubspec n = some r) :
    ∃ fs, Yaml.fields n = some fs ∧ Yaml.mapOf yamlPubspecPackage (Yaml.at_ fs g!"packages") = some r := by
  unfold yamlPubspec at h
  simp only [Option.bind_eq_bind, Option.bind_eq_some_iff] at h
  obtain ⟨fs, hf, m, hm, _, _, e⟩ := h
  cases e
  exact ⟨fs, hf, hm⟩

/-- A pubspec.lock and its descriptions decode. -/
theorem pubspec_shape (n : YNode) : (∃ ps r, yamlPubspec n = some ps ∧ pubspecDescriptions ps = .ok r) ↔ PubspecShape n := by
  have key : PubspecShape n ↔ ((Yaml.fields n).bind fun fs => ((Yaml.mapOf (fun v => (yamlPubspecPackage v).bind fun p =>
      match (p.description.map PubspecNode.decode).getD (.ok {}) with
      | .ok d => some d
      | _ => none) (Yaml.at_ fs g!"packages")).bind fun _ => Yaml.mapOf Yaml.text (Yaml.at_ fs g!"sdks"))).isSome := by
    refine (Yaml.struct_isSome _ fun fs h => ?_).symm
    have hp : ∀ v, ((yamlPubspecPackage v).bind fun p => match (p.description.map PubspecNode.decode).getD (.ok {}) with
      | .ok d => some d
      | _ => none).isSome ↔ PubspecPackageShape v := by
      intro v
      rw [← pubspecPackage_shape, bind_isSome]
      refine exists_congr fun p => and_congr_right fun _ => ?_
      cases (p.description.map PubspecNode.decode).getD (.ok {}) <;> simp
    simp only [List.mem_cons, List.not_mem_nil, or_false, forall_eq_or_imp, forall_eq,
      ← Yaml.field_shape (Yaml.mapOf_isSome hp) (Yaml.null_mapOf _) h,
      ← Yaml.field_shape (Yaml.mapOf_isSome Yaml.text_isSome) (Yaml.null_mapOf _) h, bind_isSome]
    simp only [exists_and_right, ← Option.isSome_iff_exists]
  rw [key]
  unfold yamlPubspec
  simp only [Option.bind_eq_bind, bind_isSome, Option.bind_eq_some_iff]
  constructor
  · rintro ⟨ps, r, ⟨fs, hf, m, hm, s, hs, e⟩, hr⟩
    cases e
    have hm' := (Yaml.mapOf_isSome (fun v => Iff.rfl) _).1 (isSome_of hm)
    have hd := descriptions_is_ok.1 ⟨r, hr⟩
    have : (Yaml.mapOf (fun v => (yamlPubspecPackage v).bind fun p =>
        match (p.description.map PubspecNode.decode).getD (.ok {}) with
        | .ok d => some d
        | _ => none) (Yaml.at_ fs g!"packages")).isSome := by
      rw [Yaml.mapOf_isSome (fun v => Iff.rfl)]
      rcases hm' with h | ⟨es, e, hk, h⟩
      · exact .inl h
      · refine .inr ⟨es, e, hk, fun k v hv => ?_⟩
        obtain ⟨p, hp⟩ := Option.isSome_iff_exists.1 (h k v hv)
        obtain ⟨d, hd⟩ := hd (k, p) ((Yaml.mem_mapOf hm k p).2 ⟨v, hv, hp⟩)
        dsimp only at hd
        rw [hp, Option.bind_some, hd]
        rfl
    obtain ⟨a, ha⟩ := Option.isSome_iff_exists.1 this
    exact ⟨fs, hf, a, ha, by rw [hs]; rfl⟩
  · rintro ⟨fs, hf, a, ha, hs⟩
    obtain ⟨s, hs⟩ := Option.isSome_iff_exists.1 hs
    have ha' := (Yaml.mapOf_isSome (fun v => Iff.rfl) _).1 (isSome_of ha)
    have : (Yaml.mapOf yamlPubspecPackage (Yaml.at_ fs g!"packages")).isSome := by
      rw [Yaml.mapOf_isSome (fun v => Iff.rfl)]
      rcases ha' with h | ⟨es, e, hk, h⟩
      · exact .inl h
      · refine .inr ⟨es, e, hk, fun k v hv => ?_⟩
        obtain ⟨p, hp, _⟩ := bind_isSome.1 (h k v hv)
        rw [hp]
        rfl
    obtain ⟨m, hm⟩ := Option.isSome_iff_exists.1 this
    have hok : ∃ r, pubspecDescriptions m = .ok r := by
      rw [descriptions_is_ok]
      rintro ⟨k, p⟩ hx
      obtain ⟨v, hv, hp⟩ := (Yaml.mem_mapOf hm k p).1 hx
      rcases ha' with ⟨t, e⟩ | ⟨es, e, hk, h⟩
      · rw [e] at hv
        obtain ⟨_, e, _⟩ := hv
        cases e
      · have := h k v hv
        dsimp only at this ⊢
        rw [hp, Option.bind_some] at this
        revert this
        cases (p.description.map PubspecNode.decode).getD (.ok {}) <;> simp
    obtain ⟨r, hr⟩ := hok
    exact ⟨m, r, ⟨fs, hf, m, hm, s, hs, rfl⟩, hr⟩

end YamlFile

/-- pubspec.lock: there is no error exactly if the document has the shape. -/
theorem C75_pubspec_accepted (yaml : YamlReader) (iter : SMap (Str × PubspecDescription) → SMap (Str × PubspecDescription))
    (content : Str) (n : YNode) (h : yaml content = some (some n)) :
    (∃ ps, parsePubspecLock (pubspecDecode yaml) iter (some content) = some (ps, false)) ↔ PubspecShape n := by
  rw [← YamlFile.pubspec_shape]
  unfold parsePubspecLock
  rw [Option.bind_some]
  unfold pubspecDecode
  rw [h]
  match n with
  | .scalar s true =>
    refine ⟨fun _ => ⟨[], [], rfl, rfl⟩, fun _ => ⟨_, rfl⟩⟩
  | .scalar s false => simp [yamlPubspec, Yaml.fields]
  | .seq l => simp [yamlPubspec, Yaml.fields]
  | .map es =>
    dsimp only
    cases hp : yamlPubspec (.map es) with
    | none => simp
    | some ps =>
      simp only [Option.map_some, Option.some.injEq, exists_and_left, exists_eq_left']
      cases pubspecDescriptions ps <;> simp

/-- pubspec.lock: the packages reported are those in the document, with their versions and commits. -/
theorem C75_pubspec_read (yaml : YamlReader) (iter : SMap (Str × PubspecDescription) → SMap (Str × PubspecDescription))
    (hi : ∀ l, (iter l).Perm l) (content : Str) (n : YNode) (h : yaml content = some (some n)) (ps : List PackageDetails)
    (hps : parsePubspecLock (pubspecDecode yaml) iter (some content) = some (ps, false)) (p : PackageDetails) :
    p ∈ ps ↔ PubspecSays n p := by
  unfold parsePubspecLock at hps
  rw [Option.bind_some] at hps
  have hnull : YNull n → ps = [] → (p ∈ ps ↔ PubspecSays n p) := by
    rintro ⟨s, rfl⟩ rfl
    simp only [List.not_mem_nil, false_iff]
    rintro ⟨⟨v, hv, _⟩, _⟩
    obtain _ | ⟨⟨_, e, _⟩, _⟩ := hv
    cases e
  have hsome : ∀ r, yamlPubspec n = some r → (match pubspecDescriptions r with
      | .panic => none
      | .error => some ([], true)
      | .ok l => some ((iter l).map fun x => (⟨x.1, x.2.1, x.2.2.ref, pubEcosystem, pubEcosystem⟩ : PackageDetails), false)) = some (ps, false) →
      (p ∈ ps ↔ PubspecSays n p) := by
    intro r hr e
    obtain ⟨fs, hf, hm⟩ := YamlFile.pubspec_parts r hr
    split at e
    · cases e
    · cases e
    · rename_i l hl
      cases e
      rw [List.mem_map]
      constructor
      · rintro ⟨⟨k, v, d⟩, hx, rfl⟩
        rw [(hi l).mem_iff, YamlFile.descriptions_ok hl] at hx
        obtain ⟨q, hq, rfl, hd⟩ := hx
        obtain ⟨w, hw, hq⟩ := (Yaml.mem_mapOf hm k q).1 hq
        obtain ⟨hv, gs, hg, e⟩ := YamlFile.pubspecPackage_some hq
        rw [e] at hd
        refine ⟨⟨w, (YamlFile.entries hf _ _ _).2 hw, (hv _).2 rfl, ?_⟩, rfl, rfl⟩
        rw [Yaml.text_step hg]
        exact ((YamlFile.described_decode _).2.2 _ hd _).2 rfl
      · rintro ⟨⟨w, hw, hv', hc⟩, he, hc'⟩
        have hw := (YamlFile.entries hf _ _ _).1 hw
        have hall := (Yaml.mapOf_isSome (fun v => Iff.rfl) _).1 (YamlFile.isSome_of hm)
        rcases hall with ⟨t, e⟩ | ⟨es, e, hk, hall⟩
        · rw [e] at hw
          obtain ⟨_, e, _⟩ := hw
          cases e
        · obtain ⟨q, hq⟩ := Option.isSome_iff_exists.1 (hall _ w hw)
          have hq' := (Yaml.mem_mapOf hm p.name q).2 ⟨w, hw, hq⟩
          obtain ⟨hv, gs, hg, e⟩ := YamlFile.pubspecPackage_some hq
          obtain ⟨d, hd⟩ := YamlFile.descriptions_is_ok.1 ⟨l, hl⟩ _ hq'
          refine ⟨(p.name, q.version, d), (hi l).mem_iff.2 ((YamlFile.descriptions_ok hl _ _ _).2 ⟨q, hq', rfl, hd⟩), ?_⟩
          dsimp only at hd
          rw [e] at hd
          rw [Yaml.text_step hg] at hc
          rw [(YamlFile.described_decode _).2.2 _ hd] at hc
          rw [hv] at hv'
          cases p
          dsimp only at hc hv' he hc'
          subst hc hv' he hc'
          rfl
  unfold pubspecDecode at hps
  rw [h] at hps
  match n, hps, hnull, hsome with
  | .scalar s true, hps, hnull, _ =>
    cases hps
    exact hnull ⟨s, rfl⟩ rfl
  | .scalar s false, hps, _, _ => cases hps
  | .seq l, hps, _, _ => cases hps
  | .map es, hps, _, hsome =>
    dsimp only at hps
    cases hr : yamlPubspec (.map es) with
    | none =>
      rw [hr] at hps
      cases hps
    | some r =>
      rw [hr] at hps
      exact hsome r hr hps

/-- pubspec.lock: an empty file has no packages; one that is no YAML is an error. -/
theorem C75_pubspec_nothing (yaml : YamlReader) (iter : SMap (Str × PubspecDescription) → SMap (Str × PubspecDescription))
    (content : Str) :
    (yaml content = some none → parsePubspecLock (pubspecDecode yaml) iter (some content) = some ([], false)) ∧
    (yaml content = none → parsePubspecLock (pubspecDecode yaml) iter (some content) = some ([], true)) := by
  constructor <;>
  · intro h
    simp [parsePubspecLock, pubspecDecode, h]

/-- The config: an empty file says nothing; one that is no YAML is not accepted. -/
theorem C75_config_nothing (yaml : YamlReader) (content : Str) :
    (yaml content = some none → configDecode yaml content = some {}) ∧ (yaml content = none → configDecode yaml content = none) := by
  constructor <;>
  · intro h
    simp [configDecode, h]

/-- The config: a document is accepted exactly if it has the shape. -/
theorem C75_config_accepted (yaml : YamlReader) (content : Str) (n : YNode) (h : yaml content = some (some n)) :
    (configDecode yaml content).isSome ↔ ConfigShape n := by
  unfold configDecode
  rw [h]
  exact YamlFile.config_isSome n

/-- The config: what is read is what the document says. -/
theorem C75_config_read (yaml : YamlReader) (content : Str) (n : YNode) (h : yaml content = some (some n)) (c : RawConfig)
    (hc : configDecode yaml content = some c) : ConfigSays n c := by
  unfold configDecode at hc
  rw [h] at hc
  exact YamlFile.config_says hc

/-- The same for `load`: a path is cleaned, and the config that comes out is the one that the file there says. -/
theorem C75_config_load (yaml : YamlReader) (file : Str → Option (Option Str)) (path : Str) (raw : RawConfig)
    (h : loadRaw (configFiles yaml file) path = .ok raw) : ∃ content, file (Path.clean path) = some (some content) ∧
      (yaml content = some none ∧ raw = {} ∨ ∃ n, yaml content = some (some n) ∧ ConfigSays n raw) := by
  unfold loadRaw at h
  dsimp only at h
  cases hf : file (Path.clean path) with
  | none =>
    simp only [configFiles, hf] at h
    cases h
  | some o =>
    cases o with
    | none =>
      simp only [configFiles, hf] at h
      cases h
    | some c =>
      refine ⟨c, rfl, ?_⟩
      cases hd : configDecode yaml c with
      | none =>
        simp only [configFiles, hf, hd] at h
        cases h
      | some raw' =>
        simp only [configFiles, hf, hd] at h
        cases h
        cases hy : yaml c with
        | none =>
          unfold configDecode at hd
          rw [hy] at hd
          cases hd
        | some o =>
          cases o with
          | none =>
            unfold configDecode at hd
            rw [hy] at hd
            cases hd
            exact .inl ⟨rfl, rfl⟩
          | some n => exact .inr ⟨n, rfl, C75_config_read yaml c n hy raw hd⟩

/-- The document `packages: {a: {version: "1", description: {resolved-ref: abc}}, b: {description: x}}`. -/
def C75_sample_doc : YNode :=
  let t := fun s => YNode.scalar s false
  .map [(t g!"packages", .map [
    (t g!"a", .map [(t g!"version", t g!"1"), (t g!"description", .map [(t g!"resolved-ref", t g!"abc")])]),
    (t g!"b", .map [(t g!"description", t g!"x")])])]

example : ∃ ps, parsePubspecLock (pubspecDecode fun _ => some (some C75_sample_doc)) id (some []) = some (ps, false) ∧
    ps = [⟨g!"a", g!"1", g!"abc", g!"Pub", g!"Pub"⟩, ⟨g!"b", [], [], g!"Pub", g!"Pub"⟩] := ⟨_, rfl, by decide⟩

/-- A pnpm lockfile without a version is refused, one with the version 9 is read. -/
example : (yamlPnpm (fun s => if s = g!"9.0" then some true else none) (.map [])).isNone ∧
    (yamlPnpm (fun s => if s = g!"9.0" then some true else none)
      (.map [(.scalar g!"lockfileVersion" false, .scalar g!"9.0" false)])).isSome := by decide

/-- `ignore: [~, a]`: the null item is left out. -/
example : yamlConfig (.map [(.scalar g!"ignore" false, .seq [.scalar g!"~" true, .scalar g!"a" false])]) = some ⟨[g!"a"], []⟩ := by
  decide

/-- A key that occurs twice is an error. -/
example : yamlConfig (.map [(.scalar g!"x" false, .scalar [] true), (.scalar g!"x" false, .scalar [] true)]) = none := by decide

end Osv
