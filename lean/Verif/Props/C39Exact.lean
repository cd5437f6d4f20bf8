import Verif.Lemmas.OrderExact
import Verif.Model.Parsers
import Verif.Props.C39
/-!
# C39: exactly when the order of iteration matters

For requirements.txt it never does. For packages.lock.json, Pipfile.lock and go.mod it matters exactly when two different packages
share a key (in Pipfile.lock: in one section, and the other section does not decide).
-/
namespace Osv
open Str Spec MapOrder

/-! ## requirements.txt -/

/-- The order in which Go iterates over the maps of the included files never matters. -/
theorem C39_requirements (fs : Str → Option Str) (order order' : Str → List Str → List PackageDetails → List PackageDetails)
    (ho : ∀ p r, IsOrder (order p r)) (ho' : ∀ p r, IsOrder (order' p r)) (depth : Nat) (path : Str) :
    SameParse ((parseRequirementsTxt fs order depth path).map reqParsed) ((parseRequirementsTxt fs order' depth path).map reqParsed) := by
  have h := Pip.at_order (fs := fs) ho ho' depth path []
  unfold parseRequirementsTxt
  revert h
  generalize parseRequirementsAt fs order depth path [] = a
  generalize parseRequirementsAt fs order' depth path [] = b
  intro h
  match a, b, h with
  | none, none, _ => trivial
  | some (none, r), some (none, r'), _ => exact SameParse.refl _
  | some (some ds, r), some (some ds', r'), ⟨_, hp, _⟩ => exact ⟨hp, rfl⟩

/-! ## packages.lock.json -/

/-- No two different packages share a key. -/
def NuGetKeysOk (l : NuGetLockfile) : Prop :=
  ∀ x ∈ l.dependencies.getD [], ∀ y ∈ x.2.getD [], ∀ x' ∈ l.dependencies.getD [], ∀ y' ∈ x'.2.getD [],
    y.1 ++ g!"@" ++ y.2 = y'.1 ++ g!"@" ++ y'.2 → y = y'

/-- The order does not matter if no two different packages share a key. -/
theorem C39_nuget_keys_partial (content : Option Str) (d d' : SMap Str → SMap Str)
    (f f' : SMap (Option (SMap Str)) → SMap (Option (SMap Str))) (o o' : List PackageDetails → List PackageDetails)
    (hd : IsOrder d) (hd' : IsOrder d') (hf : IsOrder f) (hf' : IsOrder f') (ho : IsOrder o) (ho' : IsOrder o')
    (hk : ∀ l, (content.bind Json.parse).bind decNuGetLockfile = some (some l) → NuGetKeysOk l) :
    SameParse (parseNuGetLock d f o content) (parseNuGetLock d' f' o' content) := by
  unfold parseNuGetLock
  cases content with
  | none => exact SameParse.refl _
  | some c =>
    dsimp only
    rw [Option.bind_some] at hk
    cases hl : (Json.parse c).bind decNuGetLockfile with
    | none => exact SameParse.refl _
    | some l =>
      cases l with
      | none => exact SameParse.refl _
      | some l =>
        have hk := hk l hl
        dsimp only
        by_cases hv : l.version ≠ g!"1"
        · rw [if_pos hv, if_pos hv]; exact SameParse.refl _
        · rw [if_neg hv, if_neg hv]
          refine ⟨(ho _).trans (List.Perm.trans (List.Perm.map _ ?_) (ho' _).symm), rfl⟩
          refine (NuGet.loop_adds d hd [] _).perm ((NuGet.loop_adds d' hd' [] _).congr fun x => ?_) ?_
          · simp only [(hf _).mem_iff, (hf' _).mem_iff]
          · rintro _ _ ⟨x, hx, y, hy, rfl⟩ ⟨x', hx', y', hy', rfl⟩ e
            rw [hk x ((hf _).mem_iff.1 hx) y hy x' ((hf _).mem_iff.1 hx') y' hy' e]

/-- That condition is exact. -/
theorem C39_nuget_iff (c : Str) (l : NuGetLockfile) (hl : (Json.parse c).bind decNuGetLockfile = some (some l))
    (hv : l.version = g!"1") :
    NuGetKeysOk l ↔ ∀ (d d' : SMap Str → SMap Str) (f f' : SMap (Option (SMap Str)) → SMap (Option (SMap Str))),
      IsOrder d → IsOrder d' → IsOrder f → IsOrder f' →
      SameParse (parseNuGetLock d f id (some c)) (parseNuGetLock d' f' id (some c)) := by
  constructor
  · intro h d d' f f' hd hd' hf hf'
    refine C39_nuget_keys_partial _ _ _ _ _ _ _ hd hd' hf hf' (fun _ => .refl _) (fun _ => .refl _) fun l' hl' => ?_
    rw [Option.bind_some, hl] at hl'
    cases hl'
    exact h
  · intro h x hx y hy x' hx' y' hy' e
    have hS := h (toLast y) (toLast y') (toLast x) (toLast x') (toLast_perm _) (toLast_perm _) (toLast_perm _) (toLast_perm _)
    unfold parseNuGetLock at hS
    simp only [hl, hv, ne_eq, not_true_eq_false, if_false, id] at hS
    have h1 := NuGet.loop_last hx hy
    have h2 := NuGet.loop_last hx' hy'
    have hp := hS.1
    dsimp only at hp
    have ha := NuGet.loop_adds (toLast y') (toLast_perm _) [] (toLast x' (l.dependencies.getD []))
    have hkd : DetailMap.Keyed (nugetLoop (toLast y') [] (toLast x' (l.dependencies.getD []))) := by
      intro z hz
      rcases ha.1 z hz with h | ⟨_, _, w, _, rfl⟩
      · cases h
      · rfl
    have := one_key hkd (ha.2.2 (by simp)) (.refl _) (hp.mem_iff.1 (List.mem_map.2 ⟨_, h1, rfl⟩)) (List.mem_map.2 ⟨_, h2, rfl⟩) e
    simp only [NuGet.keyed, PackageDetails.mk.injEq] at this
    exact Prod.ext this.1 this.2.1

/-! ## Pipfile.lock -/

/-- Different packages may share a key only in the default section, and then a package for development takes their place. -/
def PipenvKeysOk (l : PipenvLock) : Prop :=
  (∀ x y, Pipenv.Reads (l.packagesDev.getD []) x → Pipenv.Reads (l.packagesDev.getD []) y → x.1 = y.1 → x.2 = y.2) ∧
  ∀ x y, Pipenv.Reads (l.packages.getD []) x → Pipenv.Reads (l.packages.getD []) y → x.1 = y.1 →
    x.2 = y.2 ∨ ∃ z, Pipenv.Reads (l.packagesDev.getD []) z ∧ z.1 = x.1

namespace Pipenv

theorem mem_entries (l : SMap Str) (x : Str × PackageDetails) : x ∈ l.filterMap entry ↔ Reads l x := by
  rw [List.mem_filterMap]
  unfold Reads
  constructor
  · rintro ⟨⟨n, w⟩, h, e⟩
    unfold entry at e
    split at e
    · cases e
    · rename_i hw
      obtain ⟨v, hv, rfl⟩ := Option.map_eq_some_iff.1 e
      exact ⟨n, w, v, h, hw, hv, rfl⟩
  · rintro ⟨n, w, v, h, hw, hv, rfl⟩
    refine ⟨(n, w), h, ?_⟩
    unfold entry
    rw [if_neg hw, hv]
    rfl

/-- What both loops leave. -/
theorem both_mem {l : PipenvLock} (hk : PipenvKeysOk l) {iter : SMap Str → SMap Str} (hi : IsOrder iter) {m1 m2 : SMap PackageDetails}
    (h1 : pipenvLoop [] (iter (l.packages.getD [])) = some m1) (h2 : pipenvLoop m1 (iter (l.packagesDev.getD [])) = some m2) :
    (m2.map (·.1)).Nodup ∧ ∀ x, x ∈ m2 ↔ Reads (l.packagesDev.getD []) x ∨
      (Reads (l.packages.getD []) x ∧ ∀ z, Reads (l.packagesDev.getD []) z → z.1 ≠ x.1) := by
  have hr : ∀ (s : SMap Str) x, x ∈ (iter s).filterMap entry ↔ Reads s x := by
    intro s x
    rw [((hi s).filterMap entry).mem_iff, mem_entries]
  have n1 : (m1.map (·.1)).Nodup := by rw [loop_eq h1]; exact merge_nodup (by simp) _
  refine ⟨by rw [loop_eq h2]; exact merge_nodup n1 _, fun x => ?_⟩
  rw [loop_eq h2, mem_merge n1 _ x (fun y hy z hz e1 e2 =>
    Prod.ext (e1.trans e2.symm) (hk.1 y z ((hr _ _).1 hy) ((hr _ _).1 hz) (e1.trans e2.symm)))]
  rw [hr]
  refine or_congr_right ?_
  have e : (∀ y ∈ (iter (l.packagesDev.getD [])).filterMap entry, y.1 ≠ x.1) ↔ ∀ z, Reads (l.packagesDev.getD []) z → z.1 ≠ x.1 := by
    simp only [hr]
  rw [e]
  refine and_congr_left fun hno => ?_
  rw [loop_eq h1, mem_merge (by simp) _ x ?_, hr]
  · simp
  · intro y hy z hz e1 e2
    refine Prod.ext (e1.trans e2.symm) ?_
    rcases hk.2 y z ((hr _ _).1 hy) ((hr _ _).1 hz) (e1.trans e2.symm) with h | ⟨w, hw, ew⟩
    · exact h
    · exact absurd (ew.trans e1) (hno w hw)

theorem loop_none_iff {iter iter' : SMap Str → SMap Str} (hi : IsOrder iter) (hi' : IsOrder iter') (s : SMap Str)
    (m m' : SMap PackageDetails) : pipenvLoop m (iter s) = none ↔ pipenvLoop m' (iter' s) = none := by
  rw [loop_none, loop_none]
  simp only [(hi s).mem_iff, (hi' s).mem_iff]

/-- Whether the program panics does not depend on the order. -/
theorem runs {l : PipenvLock} {iter : SMap Str → SMap Str} (hi : IsOrder iter) {iter' : SMap Str → SMap Str} (hi' : IsOrder iter') :
    ((pipenvLoop [] (iter (l.packages.getD []))).bind fun m => pipenvLoop m (iter (l.packagesDev.getD []))) = none ↔
    ((pipenvLoop [] (iter' (l.packages.getD []))).bind fun m => pipenvLoop m (iter' (l.packagesDev.getD []))) = none := by
  have h1 := loop_none_iff hi hi' (l.packages.getD []) [] []
  have h2 := loop_none_iff hi hi' (l.packagesDev.getD [])
  cases a : pipenvLoop [] (iter (l.packages.getD [])) with
  | none => rw [h1.1 a]; simp
  | some m =>
    cases b : pipenvLoop [] (iter' (l.packages.getD [])) with
    | none => rw [h1.2 b] at a; cases a
    | some m' => rw [Option.bind_some, Option.bind_some]; exact h2 m m'

end Pipenv

/-- The order does not matter under this condition. -/
theorem C39_pipenv_keys_partial (content : Option Str) (i i' : SMap Str → SMap Str)
    (o o' : List PackageDetails → List PackageDetails) (hi : IsOrder i) (hi' : IsOrder i') (ho : IsOrder o) (ho' : IsOrder o')
    (hk : ∀ l, (content.bind Json.parse).bind decPipenvLock = some (some l) → PipenvKeysOk l) :
    SameParse (parsePipenvLock i o content) (parsePipenvLock i' o' content) := by
  unfold parsePipenvLock
  cases content with
  | none => exact SameParse.refl _
  | some c =>
    dsimp only
    rw [Option.bind_some] at hk
    cases hl : (Json.parse c).bind decPipenvLock with
    | none => exact SameParse.refl _
    | some l =>
      cases l with
      | none => exact SameParse.refl _
      | some l =>
        have hk := hk l hl
        dsimp only
        cases a : (pipenvLoop [] (i (l.packages.getD []))).bind fun m => pipenvLoop m (i (l.packagesDev.getD [])) with
        | none => rw [(Pipenv.runs hi hi').1 a]; trivial
        | some m2 =>
          cases b : (pipenvLoop [] (i' (l.packages.getD []))).bind fun m => pipenvLoop m (i' (l.packagesDev.getD [])) with
          | none => rw [(Pipenv.runs hi hi').2 b] at a; cases a
          | some m2' =>
            obtain ⟨m1, h1, h2⟩ := Option.bind_eq_some_iff.1 a
            obtain ⟨m1', h1', h2'⟩ := Option.bind_eq_some_iff.1 b
            obtain ⟨n, hm⟩ := Pipenv.both_mem hk hi h1 h2
            obtain ⟨n', hm'⟩ := Pipenv.both_mem hk hi' h1' h2'
            exact ⟨(ho _).trans (((DetailMap.nodup_keys_perm n n' fun x => (hm x).trans (hm' x).symm).map _).trans (ho' _).symm), rfl⟩

namespace Pipenv

theorem reads_keyed {l : SMap Str} {x : Str × PackageDetails} (h : Reads l x) : x.1 = detailKey x.2 := by
  obtain ⟨n, w, v, _, _, _, rfl⟩ := h
  rfl

/-- An order that makes an entry the last one of its section keeps it, unless the other section takes its place. -/
theorem last_wins {l : PipenvLock} {n w v : Str} (hv : dropBytes 2 w = some v) (hw : w ≠ []) {m1 m2 : SMap PackageDetails}
    (h1 : pipenvLoop [] (toLast (n, w) (l.packages.getD [])) = some m1)
    (h2 : pipenvLoop m1 (toLast (n, w) (l.packagesDev.getD [])) = some m2)
    (hin : (n, w) ∈ l.packagesDev.getD [] ∨
      ((n, w) ∈ l.packages.getD [] ∧ ∀ z, Reads (l.packagesDev.getD []) z → z.1 ≠ n ++ g!"@" ++ v)) :
    pkg g!"PyPI" n v [] ∈ m2.map (·.2) := by
  have he : entry (n, w) = some (n ++ g!"@" ++ v, pkg g!"PyPI" n v []) := by
    unfold entry; rw [if_neg hw, hv]; rfl
  have last : ∀ (s : SMap Str), (n, w) ∈ s → ∃ r, (toLast (n, w) s).filterMap entry =
      r ++ [(n ++ g!"@" ++ v, pkg g!"PyPI" n v [])] := by
    intro s hs
    rw [toLast_mem hs, List.filterMap_append, List.filterMap_cons, he]
    exact ⟨_, rfl⟩
  refine List.mem_map.2 ⟨(n ++ g!"@" ++ v, pkg g!"PyPI" n v []), ?_, rfl⟩
  rcases hin with h | ⟨h, hno⟩
  · obtain ⟨r, hr⟩ := last _ h
    rw [loop_eq h2, hr]
    exact merge_last _ _ _
  · have hm1 : (n ++ g!"@" ++ v, pkg g!"PyPI" n v []) ∈ m1 := by
      obtain ⟨r, hr⟩ := last _ h
      rw [loop_eq h1, hr]
      exact merge_last _ _ _
    have hno' : ∀ y ∈ (toLast (n, w) (l.packagesDev.getD [])).filterMap entry, y.1 ≠ n ++ g!"@" ++ v := by
      intro y hy
      rw [((toLast_perm _ _).filterMap entry).mem_iff, mem_entries] at hy
      exact hno y hy
    rw [loop_eq h2]
    refine (mem_merge ?_ _ _ ?_).2 (Or.inr ⟨hm1, hno'⟩)
    · rw [loop_eq h1]; exact merge_nodup (by simp) _
    · intro y hy _ _ e; exact absurd e (hno' y hy)

end Pipenv

/-- That condition is exact, for files on which the program does not panic (`C65_panic_iff`). -/
theorem C39_pipenv_iff (c : Str) (l : PipenvLock) (hl : (Json.parse c).bind decPipenvLock = some (some l))
    (hp : parsePipenvLock id id (some c) ≠ none) :
    PipenvKeysOk l ↔ ∀ (i i' : SMap Str → SMap Str), IsOrder i → IsOrder i' →
      SameParse (parsePipenvLock i id (some c)) (parsePipenvLock i' id (some c)) := by
  constructor
  · intro h i i' hi hi'
    refine C39_pipenv_keys_partial _ _ _ _ _ hi hi' (fun _ => .refl _) (fun _ => .refl _) fun l' hl' => ?_
    rw [Option.bind_some, hl] at hl'
    cases hl'
    exact h
  · intro h
    unfold parsePipenvLock at hp h
    simp only [hl, id] at hp h
    rw [Ne, Option.map_eq_none_iff] at hp
    have key : ∀ n w v n' w' v', dropBytes 2 w = some v → w ≠ [] → dropBytes 2 w' = some v' → w' ≠ [] →
        n ++ g!"@" ++ v = n' ++ g!"@" ++ v' →
        ((n, w) ∈ l.packagesDev.getD [] ∧ (n', w') ∈ l.packagesDev.getD [] ∨
          ((n, w) ∈ l.packages.getD [] ∧ (n', w') ∈ l.packages.getD [] ∧
            ∀ z, Pipenv.Reads (l.packagesDev.getD []) z → z.1 ≠ n ++ g!"@" ++ v)) →
        pkg g!"PyPI" n v [] = pkg g!"PyPI" n' v' [] := by
      intro n w v n' w' v' hv hw hv' hw' e hin
      have hS := h (toLast (n, w)) (toLast (n', w')) (toLast_perm _) (toLast_perm _)
      obtain ⟨m2, ha⟩ := Option.ne_none_iff_exists'.1
        (fun e => hp ((Pipenv.runs (l := l) (toLast_perm (n, w)) (iter' := id) (fun _ => .refl _)).1 e))
      obtain ⟨m2', hb⟩ := Option.ne_none_iff_exists'.1
        (fun e => hp ((Pipenv.runs (l := l) (toLast_perm (n', w')) (iter' := id) (fun _ => .refl _)).1 e))
      rw [ha, hb] at hS
      obtain ⟨m1, h1, h2⟩ := Option.bind_eq_some_iff.1 ha
      obtain ⟨m1', h1', h2'⟩ := Option.bind_eq_some_iff.1 hb
      have hperm : (m2.map (·.2)).Perm (m2'.map (·.2)) := hS.1
      have p1 := Pipenv.last_wins hv hw h1 h2 (by
        rcases hin with ⟨h, _⟩ | ⟨h, _, hno⟩
        · exact Or.inl h
        · exact Or.inr ⟨h, hno⟩)
      have p2 := Pipenv.last_wins hv' hw' h1' h2' (by
        rcases hin with ⟨_, h⟩ | ⟨_, h, hno⟩
        · exact Or.inl h
        · exact Or.inr ⟨h, e ▸ hno⟩)
      have hn : (m2'.map (·.1)).Nodup := by
        rw [Pipenv.loop_eq h2', Pipenv.loop_eq h1']; exact merge_nodup (merge_nodup (by simp) _) _
      have hkd : DetailMap.Keyed m2' := by
        intro z hz
        rw [Pipenv.loop_eq h2', Pipenv.loop_eq h1'] at hz
        have : ∃ s, Pipenv.Reads s z := by
          rcases merge_mem _ _ _ hz with hz | hz
          · rcases merge_mem _ _ _ hz with hz | hz
            · cases hz
            · exact ⟨_, (Pipenv.mem_entries _ _).1 hz⟩
          · exact ⟨_, (Pipenv.mem_entries _ _).1 hz⟩
        obtain ⟨s, hs⟩ := this
        exact Pipenv.reads_keyed hs
      exact one_key hkd hn (.refl _) (hperm.mem_iff.1 p1) p2 e
    refine ⟨?_, ?_⟩
    · rintro _ _ ⟨n, w, v, hm, hw, hv, rfl⟩ ⟨n', w', v', hm', hw', hv', rfl⟩ e
      exact key n w v n' w' v' hv hw hv' hw' e (Or.inl ⟨hm, hm'⟩)
    · rintro _ _ ⟨n, w, v, hm, hw, hv, rfl⟩ ⟨n', w', v', hm', hw', hv', rfl⟩ e
      by_cases hz : ∃ z, Pipenv.Reads (l.packagesDev.getD []) z ∧ z.1 = n ++ g!"@" ++ v
      · exact Or.inr hz
      · exact Or.inl (key n w v n' w' v' hv hw hv' hw' e (Or.inr ⟨hm, hm', fun z h1 h2 => hz ⟨z, h1, h2⟩⟩))

/-! ## go.mod -/

/-- No two different modules share a key once all replacements are made. -/
def GoKeysOk (f : GoModFile) : Prop :=
  ∀ x ∈ goReplaceLoop id (goRequireLoop [] f.require) f.replace, ∀ y ∈ goReplaceLoop id (goRequireLoop [] f.require) f.replace,
    x.2.name ++ g!"@" ++ x.2.version = y.2.name ++ g!"@" ++ y.2.version → x.2 = y.2

/-- The order does not matter under this condition. -/
theorem C39_go_keys_partial (decode : Str → Option GoModFile) (content : Option Str)
    (i i' : SMap PackageDetails → SMap PackageDetails) (o o' : List PackageDetails → List PackageDetails) (hi : IsOrder i)
    (hi' : IsOrder i') (ho : IsOrder o) (ho' : IsOrder o') (hk : ∀ f, content.bind decode = some f → GoKeysOk f) :
    SameParse (some (parseGoLock decode i o content)) (some (parseGoLock decode i' o' content)) := by
  unfold parseGoLock
  cases hf : content.bind decode with
  | none => exact SameParse.refl _
  | some f =>
    have hk := hk f hf
    dsimp only
    have hn := (GoMod.require_adds [] f.require).2.2 (by simp)
    refine ⟨(ho _).trans (List.Perm.trans (List.Perm.map _ ?_) (ho' _).symm), rfl⟩
    unfold GoKeysOk at hk
    rw [GoMod.replace_loop (iter := id) (fun _ => .refl _) _ _ hn] at hk
    rw [GoMod.replace_loop hi _ _ hn, GoMod.replace_loop hi' _ _ hn]
    refine (GoMod.dedup_adds _ hi).perm (GoMod.dedup_adds _ hi') ?_
    rintro _ _ ⟨x, hx, rfl⟩ ⟨y, hy, rfl⟩ e
    exact hk x hx y hy e

/-- That condition is exact. -/
theorem C39_go_iff (decode : Str → Option GoModFile) (c : Str) (f : GoModFile) (hf : decode c = some f) :
    GoKeysOk f ↔ ∀ (i i' : SMap PackageDetails → SMap PackageDetails), IsOrder i → IsOrder i' →
      SameParse (some (parseGoLock decode i id (some c))) (some (parseGoLock decode i' id (some c))) := by
  constructor
  · intro h i i' hi hi'
    refine C39_go_keys_partial _ _ _ _ _ _ hi hi' (fun _ => .refl _) (fun _ => .refl _) fun f' hf' => ?_
    rw [Option.bind_some, hf] at hf'
    cases hf'
    exact h
  · intro h x hx y hy e
    have hn := (GoMod.require_adds [] f.require).2.2 (by simp)
    rw [GoMod.replace_loop (iter := id) (fun _ => .refl _) _ _ hn] at hx hy
    have hS := h (toLast x) (toLast y) (toLast_perm _) (toLast_perm _)
    unfold parseGoLock at hS
    simp only [Option.bind_some, hf, id] at hS
    rw [GoMod.replace_loop (toLast_perm x) _ _ hn, GoMod.replace_loop (toLast_perm y) _ _ hn] at hS
    have last : ∀ (l : SMap PackageDetails) z, z ∈ l → z.2 ∈ (deduplicatePackages (toLast z) l).map (·.2) := by
      intro l z hz
      unfold deduplicatePackages
      rw [toLast_mem hz, List.foldl_append]
      exact List.mem_map.2 ⟨_, SMap.set_mem _ _ _, rfl⟩
    have ha := GoMod.dedup_adds ((goRequireLoop [] f.require).map fun x => (x.1, GoMod.steps f.replace x.1 x.2)) (toLast_perm y)
    have hkd : DetailMap.Keyed (deduplicatePackages (toLast y) ((goRequireLoop [] f.require).map fun x => (x.1, GoMod.steps f.replace x.1 x.2))) := by
      intro z hz
      rcases ha.1 z hz with h | ⟨w, _, rfl⟩
      · cases h
      · rfl
    have hperm := hS.1
    dsimp only at hperm
    exact one_key hkd (ha.2.2 (by simp)) (.refl _) (hperm.mem_iff.1 (last _ _ hx)) (last _ _ hy) e

/-! ## The table of parsers -/

/-- Nothing but the orders of iteration differs. -/
structure SameFiles (P P' : ParserEnv) : Prop where
  file : P'.file = P.file
  isFloat : P'.isFloat = P.isFloat
  toml : P'.toml = P.toml
  uvOptional : P'.uvOptional = P.uvOptional
  yaml : P'.yaml = P.yaml
  pnpmNine : P'.pnpmNine = P.pnpmNine
  gomod : P'.gomod = P.gomod
  reqDepth : P'.reqDepth = P.reqDepth

/-- All orders of iteration are orders: every entry comes once. -/
structure IterOk (P : ParserEnv) : Prop where
  bun : IsOrder P.iterBun
  go : IsOrder P.iterGo
  npmDeps : IsTreeOrder P.iterNpmDeps
  npm : IsOrder P.iterNpm
  str : IsOrder P.iterStr
  nuget : IsOrder P.iterNuGet
  pnpm : IsOrder P.iterPnpm
  pubspec : IsOrder P.iterPubspec
  renv : IsOrder P.iterRenv
  order : IsOrder P.order
  req : ∀ p r, IsOrder (P.reqOrder p r)

/-- The conditions under which the order does not matter for a file. Only five formats have one. -/
structure KeysOk (P : ParserEnv) (parser path : Str) : Prop where
  npm : parser = g!"package-lock.json" → ∀ l, ((P.file path).bind Json.parse).bind decNpmLockfile = some (some l) → NpmKeysOk l
  nuget : parser = g!"packages.lock.json" → ∀ l, ((P.file path).bind Json.parse).bind decNuGetLockfile = some (some l) → NuGetKeysOk l
  pipenv : parser = g!"Pipfile.lock" → ∀ l, ((P.file path).bind Json.parse).bind decPipenvLock = some (some l) → PipenvKeysOk l
  go : parser = g!"go.mod" → ∀ f, (P.file path).bind P.gomod = some f → GoKeysOk f
  pnpm : parser = g!"pnpm-lock.yaml" → ∀ l, (P.file path).bind (pnpmDecode P.pnpmNine P.yaml) = some (some l) →
    ¬ ((∃ x ∈ l.packages, extractPnpm l.isNine x.1 = none) ∧ ∃ x ∈ l.packages, extractPnpm l.isNine x.1 = some none)

/-- What the table of parsers gives for a file does not depend on the orders of iteration. Missing for the full claim: the
conditions of `KeysOk`. -/
theorem C39_table_partial (P P' : ParserEnv) (hs : SameFiles P P') (hi : IterOk P) (hi' : IterOk P') (parser path : Str)
    (hk : KeysOk P parser path) : SameParse (parseFile P parser path) (parseFile P' parser path) := by
  unfold parseFile
  dsimp only
  rw [hs.file, hs.isFloat, hs.toml, hs.uvOptional, hs.yaml, hs.pnpmNine, hs.gomod, hs.reqDepth]
  by_cases h : parser = g!"bun.lock"
  · rw [if_pos h, if_pos h]; exact C39_bun _ _ _ _ _ hi.bun hi'.bun
  rw [if_neg h, if_neg h]; clear h
  by_cases h : parser = g!"Cargo.lock"
  · rw [if_pos h, if_pos h]; exact SameParse.refl _
  rw [if_neg h, if_neg h]; clear h
  by_cases h : parser = g!"composer.lock"
  · rw [if_pos h, if_pos h]; exact SameParse.refl _
  rw [if_neg h, if_neg h]; clear h
  by_cases h : parser = g!"Gemfile.lock"
  · rw [if_pos h, if_pos h]; exact SameParse.refl _
  rw [if_neg h, if_neg h]; clear h
  by_cases h : parser = g!"go.mod"
  · rw [if_pos h, if_pos h]; exact C39_go_keys_partial _ _ _ _ _ _ hi.go hi'.go hi.order hi'.order (hk.go h)
  rw [if_neg h, if_neg h]; clear h
  by_cases h : parser = g!"mix.lock"
  · rw [if_pos h, if_pos h]; exact SameParse.refl _
  rw [if_neg h, if_neg h]; clear h
  by_cases h : parser = g!"package-lock.json"
  · rw [if_pos h, if_pos h]; exact C39_npm_partial _ _ _ _ _ _ _ hi.npmDeps hi'.npmDeps hi.npm hi'.npm hi.order hi'.order (hk.npm h)
  rw [if_neg h, if_neg h]; clear h
  by_cases h : parser = g!"packages.lock.json"
  · rw [if_pos h, if_pos h]; exact C39_nuget_keys_partial _ _ _ _ _ _ _ hi.str hi'.str hi.nuget hi'.nuget hi.order hi'.order (hk.nuget h)
  rw [if_neg h, if_neg h]; clear h
  by_cases h : parser = g!"pdm.lock"
  · rw [if_pos h, if_pos h]; exact SameParse.refl _
  rw [if_neg h, if_neg h]; clear h
  by_cases h : parser = g!"pnpm-lock.yaml"
  · rw [if_pos h, if_pos h]; exact C39_pnpm_partial _ _ _ _ hi.pnpm hi'.pnpm (hk.pnpm h)
  rw [if_neg h, if_neg h]; clear h
  by_cases h : parser = g!"poetry.lock"
  · rw [if_pos h, if_pos h]; exact SameParse.refl _
  rw [if_neg h, if_neg h]; clear h
  by_cases h : parser = g!"pylock.toml"
  · rw [if_pos h, if_pos h]; exact SameParse.refl _
  rw [if_neg h, if_neg h]; clear h
  by_cases h : parser = g!"Pipfile.lock"
  · rw [if_pos h, if_pos h]; exact C39_pipenv_keys_partial _ _ _ _ _ hi.str hi'.str hi.order hi'.order (hk.pipenv h)
  rw [if_neg h, if_neg h]; clear h
  by_cases h : parser = g!"pom.xml"
  · rw [if_pos h, if_pos h]; exact C39_maven _ _ _ _ hi.order hi'.order
  rw [if_neg h, if_neg h]; clear h
  by_cases h : parser = g!"pubspec.lock"
  · rw [if_pos h, if_pos h]; exact C39_pubspec _ _ _ _ hi.pubspec hi'.pubspec
  rw [if_neg h, if_neg h]; clear h
  by_cases h : parser = g!"renv.lock"
  · rw [if_pos h, if_pos h]; exact C39_renv _ _ _ hi.renv hi'.renv
  rw [if_neg h, if_neg h]; clear h
  by_cases h : parser = g!"requirements.txt"
  · rw [if_pos h, if_pos h]; exact C39_requirements _ _ _ hi.req hi'.req _ _
  rw [if_neg h, if_neg h]; clear h
  exact SameParse.refl _

/-! ### Non-vacuity -/

/-- A Pipfile.lock in which the order of the default section does not matter because the other section decides. -/
example : PipenvKeysOk ⟨some [(g!"a@1", g!"==2"), (g!"a", g!"==1@2")], some [(g!"a", g!"==1@2")]⟩ := by
  have hr : Pipenv.Reads [(g!"a", g!"==1@2")] (g!"a@1@2", pkg g!"PyPI" g!"a" g!"1@2" []) :=
    ⟨g!"a", g!"==1@2", g!"1@2", by simp, by decide, by decide +kernel, by decide⟩
  refine ⟨?_, ?_⟩
  · rintro _ _ ⟨n, w, v, h, _, hv, rfl⟩ ⟨n', w', v', h', _, hv', rfl⟩ _
    simp only [Option.getD_some, List.mem_singleton, Prod.mk.injEq] at h h'
    obtain ⟨rfl, rfl⟩ := h
    obtain ⟨rfl, rfl⟩ := h'
    rw [hv] at hv'
    cases hv'
    rfl
  · rintro _ _ ⟨n, w, v, h, _, hv, rfl⟩ _ _
    refine Or.inr ⟨_, hr, ?_⟩
    simp only [Option.getD_some, List.mem_cons, Prod.mk.injEq, List.not_mem_nil, or_false] at h
    rcases h with ⟨rfl, rfl⟩ | ⟨rfl, rfl⟩
    · rw [show dropBytes 2 g!"==2" = some g!"2" by decide +kernel] at hv; cases hv; decide
    · rw [show dropBytes 2 g!"==1@2" = some g!"1@2" by decide +kernel] at hv; cases hv; decide

example : NuGetKeysOk ⟨g!"1", some [(g!"f", some [(g!"a", g!"1"), (g!"b", g!"1")]), (g!"g", some [(g!"a", g!"1")])]⟩ := by
  unfold NuGetKeysOk
  dsimp only
  decide +kernel

example : GoKeysOk ⟨[⟨g!"a", g!"v1"⟩, ⟨g!"b", g!"v1"⟩], [⟨⟨g!"a", []⟩, ⟨g!"b", g!"v1"⟩⟩]⟩ := by
  unfold GoKeysOk
  decide +kernel

end Osv
