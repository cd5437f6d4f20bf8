import Verif.Model.ConfigWrite
import Verif.Lemmas.YamlFiles
namespace Osv.YamlFile
open Str Spec Yaml

theorem items_map {α : Type} {d : YNode → Option α} {e : α → YNode} (hd : ∀ a, d (e a) = some a) (hn : ∀ a s, e a ≠ .scalar s true)
    (l : List α) : items d (l.map e) = some l := by
  induction l with
  | nil => rfl
  | cons a l ih =>
    have h1 := hd a
    have h2 := hn a
    rw [List.map_cons]
    generalize e a = n at h1 h2
    match n with
    | .scalar s true => exact absurd rfl (h2 s)
    | .scalar s false => simp [items, h1, ih]
    | .seq _ => simp [items, h1, ih]
    | .map _ => simp [items, h1, ih]

theorem rawDB_encode (d : RawDB) : yamlRawDB (encodeRawDB d) = some d := by
  obtain ⟨u, n, t, w⟩ := d
  unfold encodeRawDB yamlOpt
  by_cases hn : n = [] <;> by_cases ht : t = [] <;> by_cases hw : w = [] <;> simp only [hn, ht, hw, if_true, if_false] <;> rfl

theorem config_encode (c : RawConfig) : yamlConfig (encodeConfig c) = some c := by
  obtain ⟨is, ds⟩ := c
  have h1 : items text (is.map yamlStr) = some is := items_map (d := text) (e := yamlStr) (fun _ => rfl) (fun _ _ h => by cases h) is
  have h2 : items yamlRawDB (ds.map encodeRawDB) = some ds := items_map rawDB_encode (fun _ _ h => by cases h) ds
  by_cases hd : ds = []
  · subst hd
    show ((listOf text (.seq (is.map yamlStr))).bind fun i => _) = _
    rw [listOf, h1]
    rfl
  · have : encodeConfig ⟨is, ds⟩ = .map [(yamlStr g!"ignore", .seq (is.map yamlStr)),
        (yamlStr g!"extra-databases", .seq (ds.map encodeRawDB))] := by
      unfold encodeConfig
      rw [if_neg hd]
    rw [this]
    show ((listOf text (.seq (is.map yamlStr))).bind fun i => (listOf yamlRawDB (.seq (ds.map encodeRawDB))).bind fun d => _) = _
    rw [listOf, listOf, h1, h2]
    rfl

theorem decode_write (Y : YamlText) (c : RawConfig) : configDecode Y.read (Y.write (encodeConfig c)) = some c := by
  unfold configDecode
  rw [Y.read_write]
  exact config_encode c

theorem items_unique {n : YNode} {fs : List (Str × YNode)} (h : fields n = some fs) {k : Str} {l l' : List YNode}
    (h1 : YItems n [k] l) (h2 : YItems n [k] l') : l = l' := by
  have hw : ∀ all, YAt n [k] (.seq all) ↔ at_ fs k = .seq all := by
    intro all
    rw [at_step h k [] _ (by rintro ⟨s, e⟩; cases e), at_nil]
  unfold YItems at h1 h2
  simp only [hw] at h1 h2
  rcases h1 with ⟨a, ha, rfl⟩ | ⟨ha, rfl⟩ <;> rcases h2 with ⟨b, hb, rfl⟩ | ⟨hb, rfl⟩
  · rw [ha] at hb
    cases hb
    rfl
  · exact absurd ha (hb _)
  · exact absurd hb (ha _)
  · rfl

theorem each_unique {α β : Type} {R R' : α → β → Prop} (h : ∀ a b b', R a b → R' a b' → b' = b) {l : List α} {m m' : List β}
    (e : Each R l m) (e' : Each R' l m') : m' = m := by
  induction e generalizing m' with
  | nil =>
    cases e'
    rfl
  | cons hr _ ih =>
    cases e' with
    | cons hr' e' => rw [h _ _ _ hr hr', ih e']

theorem rawDB_unique {n : YNode} {d d' : RawDB} (h : yamlRawDB n = some d) (h' : RawDBSays n d') : d' = d := by
  unfold yamlRawDB at h
  simp only [Option.bind_eq_bind, Option.bind_eq_some_iff] at h
  obtain ⟨fs, hf, s1, h1, s2, h2, s3, h3, s4, h4, e⟩ := h
  cases e
  obtain ⟨e1, e2, e3, e4⟩ := h'
  rw [text_field hf h1] at e1
  rw [text_field hf h2] at e2
  rw [text_field hf h3] at e3
  rw [text_field hf h4] at e4
  obtain ⟨a, b, c, d⟩ := d'
  simp only at e1 e2 e3 e4
  rw [e1, e2, e3, e4]

theorem config_unique {n : YNode} {c c' : RawConfig} (h : yamlConfig n = some c) (h' : ConfigSays n c') : c' = c := by
  unfold yamlConfig at h
  simp only [Option.bind_eq_bind, Option.bind_eq_some_iff] at h
  obtain ⟨fs, hf, is, h1, ds, h2, e⟩ := h
  cases e
  obtain ⟨l1, hl1, he1⟩ := listOf_field hf h1
  obtain ⟨l2, hl2, he2⟩ := listOf_field hf h2
  obtain ⟨⟨k1, hk1, ge1⟩, ⟨k2, hk2, ge2⟩⟩ := h'
  cases items_unique hf hl1 hk1
  cases items_unique hf hl2 hk2
  obtain ⟨is', ds'⟩ := c'
  have e1 : is' = is := each_unique (R := fun v a => text v = some a) (R' := fun v s => YText v [] s)
    (fun a b b' h h' => (text_here h b').1 h') he1 ge1
  have e2 : ds' = ds := each_unique (R := fun v a => yamlRawDB v = some a) (R' := RawDBSays)
    (fun a b b' h h' => rawDB_unique h h') he2 ge2
  rw [e1, e2]

end Osv.YamlFile
