import Verif.Model.Diagnostics
import Verif.Spec.Diagnostics
import Verif.Lemmas.ZipCache
import Verif.Props.C20
import Verif.Props.C21
namespace Osv.Warnings
open Spec

theorem zipFileDiags_nil (decode : Str → Option OSV) (e : ZipEntry) : zipFileDiags decode e = [] ↔ ∃ o, Holds decode e o := by
  unfold zipFileDiags Holds
  cases e.content with
  | none => simp
  | some text =>
    cases h : decode text with
    | none => simp [h]
    | some o => simp [h]

theorem visitDiags_nil (decode : Str → Option OSV) (name : Str) (content : Option Str) :
    visitDiags decode name content ≠ [] ↔ JsonName name ∧ ∀ c o, content = some c → decode c ≠ some o := by
  unfold visitDiags
  rw [jsonName_iff]
  by_cases hj : Str.hasSuffix name g!".json" = true
  · rw [hj]
    cases content with
    | none => simp
    | some c =>
      cases hd : decode c with
      | none =>
        simp only [Bool.not_true, Bool.false_eq_true, if_false, ne_eq, reduceCtorEq, not_false_eq_true, true_and, true_iff, hd]
        rintro c' o e
        cases e
        rw [hd]
        nofun
      | some o => simp [hd]
  · rw [Bool.not_eq_true] at hj
    simp [hj]

mutual
theorem walkDiags_goes (decode : Str → Option OSV) (name : Str) (n : FNode) : (walkDiags decode name n).2 = true ↔ ¬ Vanished n := by
  match n with
  | .gone => simp [walkDiags, Vanished]
  | .file c => simp [walkDiags, Vanished]
  | .locked => simp [walkDiags, Vanished]
  | .dir es => simp [walkDiags, Vanished, walkAllDiags_goes decode es]
theorem walkAllDiags_goes (decode : Str → Option OSV) (l : FList) : (walkAllDiags decode l).2 = true ↔ ¬ VanishedIn l := by
  match l with
  | .nil => simp [walkAllDiags, VanishedIn]
  | .cons name node rest =>
    have h1 := walkDiags_goes decode name node
    have h2 := walkAllDiags_goes decode rest
    simp only [walkAllDiags, VanishedIn, not_or]
    cases h : (walkDiags decode name node).2 with
    | true =>
      rw [h] at h1
      simp only [if_true, h2, h1.1 rfl, not_false_eq_true, true_and]
    | false =>
      rw [h] at h1
      simp only [Bool.false_eq_true, if_false, h, false_iff, not_and]
      intro hn
      exact absurd (h1.2 hn) (by simp)
end

mutual
theorem walkDiags_unread (decode : Str → Option OSV) (name : Str) (n : FNode) (h : ¬ Vanished n) :
    (walkDiags decode name n).1 ≠ [] ↔ Unread decode name n := by
  match n with
  | .gone => exact absurd trivial h
  | .file c => exact visitDiags_nil decode name c
  | .locked => simp [walkDiags, Unread]
  | .dir es =>
    have h1 := visitDiags_nil decode name none
    have h2 := walkAllDiags_unread decode es h
    simp only [walkDiags, Unread, ne_eq, List.append_eq_nil_iff, ← h2]
    simp only [ne_eq, reduceCtorEq, false_implies, implies_true, and_true] at h1
    rw [← h1, Decidable.not_and_iff_or_not]
theorem walkAllDiags_unread (decode : Str → Option OSV) (l : FList) (h : ¬ VanishedIn l) :
    (walkAllDiags decode l).1 ≠ [] ↔ UnreadIn decode l := by
  match l with
  | .nil => simp [walkAllDiags, UnreadIn]
  | .cons name node rest =>
    simp only [VanishedIn, not_or] at h
    have h0 := (walkDiags_goes decode name node).2 h.1
    have h1 := walkDiags_unread decode name node h.1
    have h2 := walkAllDiags_unread decode rest h.2
    simp only [walkAllDiags, UnreadIn, h0, if_true, ← h1, ← h2, ne_eq, List.append_eq_nil_iff]
    rw [Decidable.not_and_iff_or_not]
end

theorem cacheErr_encode (c : Option Cache) : cacheErr (encodeCache c) = false := by
  cases c with
  | none => rfl
  | some c =>
    rw [encodeCache, cacheErr, Json.parse_render _ (toJson_ok c)]
    have h1 : (Json.fieldOf cacheFields g!"url").getD [] = g!"url" := by decide
    have h2 : (Json.fieldOf cacheFields g!"etag").getD [] = g!"etag" := by decide
    have h3 : (Json.fieldOf cacheFields g!"date").getD [] = g!"date" := by decide
    have h4 : (Json.fieldOf cacheFields g!"body").getD [] = g!"body" := by decide
    simp [Cache.toJson, JMembers.toList, cacheFieldErr, h1, h2, h3, h4, Base64.decode_encode]

theorem cacheErr_torn (c : Option Cache) (k : Nat) : cacheErr ((encodeCache c).dropLast.take k) = true := by
  rw [cacheErr, parse_torn]

/-- A cache file that was written completely. -/
def Whole (fs : CacheFS) (p : Str) : Prop := ∀ s, fs p = some s → ∃ c, s = encodeCache c

theorem whole_step (path : Str → Str) (fs : CacheFS) (r : ZipRun) (p : Str) (h : Whole fs p) (hw : ∀ k, r.write ≠ .torn k) :
    Whole (fetchZip path fs r).fs p := by
  unfold fetchZip
  dsimp only
  split
  · split <;> exact h
  split
  · exact h
  split
  · exact h
  split
  · split <;> exact h
  split
  · exact h
  split
  · exact h
  · intro s hs
    cases hwr : r.write with
    | complete =>
      rw [hwr] at hs
      simp only [writeFile] at hs
      split at hs
      · injection hs with hs
        exact ⟨_, hs.symm⟩
      · exact h s hs
    | untouched =>
      rw [hwr] at hs
      exact h s hs
    | torn k => exact absurd hwr (hw k)

theorem whole_history (path : Str → Str) (fs : CacheFS) (l : List ZipRun) (p : Str) (h : Whole fs p)
    (hw : ∀ r ∈ l, ∀ k, r.write ≠ .torn k) : Whole (runHistory path fs l) p := by
  unfold runHistory
  induction l generalizing fs with
  | nil => exact h
  | cons r l ih =>
    rw [List.foldl_cons]
    exact ih _ (whole_step path fs r p h (hw r (List.mem_cons_self ..))) (fun r' hr' => hw r' (List.mem_cons_of_mem _ hr'))

end Osv.Warnings
