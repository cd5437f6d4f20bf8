import Verif.Lemmas.ConfigYaml
/-!
# Beginnings of texts of configs
-/
namespace Osv.YamlScan
open Str Spec

theorem break_full {l : Str} {t : List Tok} (h : YmlFullLine l t) : '\n' ∉ l := fun hm => by
  have := h.2.1 _ hm
  unfold YmlChar at this
  revert this
  decide

/-- The last line break does not matter. -/
theorem lines_cut {s u : Str} {t : List Tok} (h : YmlLines s t) (e : s = u ++ ['\n']) : YmlLines u t := by
  induction h generalizing u with
  | last h => exact absurd (e ▸ List.mem_append_right _ (List.mem_singleton.2 rfl)) (break_full h)
  | @line l v a b h hv ih =>
    rcases List.eq_nil_or_concat v with rfl | ⟨w, x, rfl⟩
    · have h1 : l = u := (List.append_inj' (e : l ++ ['\n'] = u ++ ['\n']) rfl).1
      have h2 : lines [] = some b := lines_of hv
      cases h2
      rw [List.append_nil, ← h1]
      exact .last h
    · rw [List.concat_eq_append] at e ih
      have e' : (l ++ '\n' :: w) ++ [x] = u ++ ['\n'] := by simpa using e
      obtain ⟨h1, h2⟩ := List.append_inj' e' rfl
      cases h2
      rw [← h1]
      exact .line h (ih rfl)

theorem doc_cut {u : Str} {r : Option YNode} (h : YmlDoc (u ++ ['\n']) r) : YmlDoc u r := by
  generalize e : u ++ ['\n'] = s at h
  cases h with
  | none h => exact .none (lines_cut h e.symm)
  | some h hne hb ht => exact .some (lines_cut h e.symm) hne hb ht

/-- The text of a config with ignores. -/
theorem write_ignores (style : Str → Str) (l : List Str) (hl : l ≠ []) (d : List RawDB) :
    writeConfig style ⟨l, d⟩ = g!"ignore:\n" ++ ((l.map fun s => g!"  - " ++ style s).flatMap (· ++ ['\n']) ++
      ((if d = [] then [] else g!"extra-databases:" :: d.flatMap (dbLines style)).flatMap (· ++ ['\n']))) := by
  unfold writeConfig configLines ignoreLines
  simp only [if_neg hl]
  rw [List.cons_append, List.flatMap_cons, List.flatMap_append]
  rfl

theorem cut_ignores (style : Str → Str) (l l' : List Str) (d : List RawDB) (hl : l ≠ []) :
    ∃ b, writeConfig style ⟨l ++ l', d⟩ = writeConfig style ⟨l, []⟩ ++ b := by
  rw [write_ignores style _ (by simp [hl]), write_ignores style l hl, List.map_append, List.flatMap_append, if_pos rfl, List.flatMap_nil,
    List.append_nil]
  simp only [List.append_assoc]
  exact ⟨_, rfl⟩

theorem cut_databases (style : Str → Str) (l : List Str) (d d' : List RawDB) :
    ∃ b, writeConfig style ⟨l, d ++ d'⟩ = writeConfig style ⟨l, d⟩ ++ b := by
  unfold writeConfig configLines
  dsimp only
  by_cases hd : d = []
  · subst hd
    rw [if_pos rfl, List.append_nil, List.flatMap_append]
    exact ⟨_, rfl⟩
  · rw [if_neg hd, if_neg (by simp [hd]), List.flatMap_append (xs := d), ← List.cons_append, ← List.append_assoc, List.flatMap_append]
    exact ⟨_, rfl⟩

theorem cut_item (style : Str → Str) (l : List Str) (p : Str) (hp : style p = p) :
    writeConfig style ⟨l ++ [p], []⟩ = (g!"ignore:\n" ++ ((l.map fun s => g!"  - " ++ style s).flatMap (· ++ ['\n']) ++ (g!"  - " ++ p))) ++
      ['\n'] := by
  rw [write_ignores style _ (by simp), List.map_append, List.flatMap_append, if_pos rfl, List.flatMap_nil, List.append_nil, List.map_cons,
    List.map_nil, List.flatMap_cons, List.flatMap_nil, List.append_nil, hp]
  simp only [List.append_assoc]

theorem cut_ignore (style : Str → Str) (l l' : List Str) (p q : Str) (d : List RawDB) (hpq : style (p ++ q) = p ++ q) :
    ∃ b, writeConfig style ⟨l ++ (p ++ q) :: l', d⟩ =
      (g!"ignore:\n" ++ ((l.map fun s => g!"  - " ++ style s).flatMap (· ++ ['\n']) ++ (g!"  - " ++ p))) ++ b := by
  rw [write_ignores style _ (by simp), List.map_append, List.flatMap_append, List.map_cons, List.flatMap_cons, hpq, ← List.append_assoc _ p q]
  simp only [List.append_assoc]
  exact ⟨_, rfl⟩

end Osv.YamlScan
