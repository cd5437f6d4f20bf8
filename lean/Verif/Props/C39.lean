import Verif.Lemmas.MapOrder
import Verif.Model.LockPubspec
import Verif.Model.LockMaven
import Verif.Props.C47
import Verif.Props.C65
/-!
# C39: independence of the order of iteration

Go iterates over a map in a random order. For renv.lock, bun.lock, pubspec.lock and pom.xml this never matters. For the
others it can, as two different packages under one key replace one another (`C39_npm_iff` says exactly when for
package-lock.json) or as the first bad key of a pnpm-lock.yaml decides between an error and a panic (`C39_pnpm_iff`).

Every order is a function of the map, so that in one run equal maps are iterated over in the same order. Only go.mod iterates
over a map several times, and there the first loops do not depend on the order (`GoMod.replace_loop`).
-/
namespace Osv
open Str Spec

/-- The same outcome, and the same packages if there are any. -/
def SameParse : Option Parsed → Option Parsed → Prop
  | none, none => True
  | some x, some y => x.1.Perm y.1 ∧ x.2 = y.2
  | _, _ => False

theorem SameParse.refl (x : Option Parsed) : SameParse x x := by
  cases x with
  | none => trivial
  | some x => exact ⟨List.Perm.refl _, rfl⟩

/-- An order of iteration. -/
def IsOrder {α : Type} (iter : List α → List α) : Prop := ∀ l, (iter l).Perm l

/-- An order of iteration over the maps of a tree of dependencies. -/
def IsTreeOrder (iter : NpmDeps → NpmDeps) : Prop := ∀ t n v, NpmDepIn (iter t) n v ↔ NpmDepIn t n v

/-- The claim for package-lock.json. -/
def C39_npm_full : Prop := ∀ (content : Option Str) (d d' : NpmDeps → NpmDeps) (p p' : SMap NpmPackage → SMap NpmPackage)
  (o o' : List PackageDetails → List PackageDetails), IsTreeOrder d → IsTreeOrder d' → IsOrder p → IsOrder p' → IsOrder o →
  IsOrder o' → SameParse (parseNpmLock d p o content) (parseNpmLock d' p' o' content)

/-- The claim for packages.lock.json. -/
def C39_nuget_full : Prop := ∀ (content : Option Str) (d d' : SMap Str → SMap Str)
  (f f' : SMap (Option (SMap Str)) → SMap (Option (SMap Str))) (o o' : List PackageDetails → List PackageDetails),
  IsOrder d → IsOrder d' → IsOrder f → IsOrder f' → IsOrder o → IsOrder o' →
  SameParse (parseNuGetLock d f o content) (parseNuGetLock d' f' o' content)

/-- The claim for Pipfile.lock. -/
def C39_pipenv_full : Prop := ∀ (content : Option Str) (i i' : SMap Str → SMap Str)
  (o o' : List PackageDetails → List PackageDetails), IsOrder i → IsOrder i' → IsOrder o → IsOrder o' →
  SameParse (parsePipenvLock i o content) (parsePipenvLock i' o' content)

/-- The claim for pubspec.lock. -/
def C39_pubspec_full : Prop := ∀ (yaml : Str → Option (Option (SMap PubspecPackage))) (content : Option Str)
  (i i' : SMap (Str × PubspecDescription) → SMap (Str × PubspecDescription)), IsOrder i → IsOrder i' →
  SameParse (parsePubspecLock yaml i content) (parsePubspecLock yaml i' content)

/-- The claim for renv.lock. -/
def C39_renv_full : Prop := ∀ (content : Option Str) (i i' : SMap RenvPackage → SMap RenvPackage), IsOrder i → IsOrder i' →
  SameParse (parseRenvLock i content) (parseRenvLock i' content)

/-- The claim for pnpm-lock.yaml. -/
def C39_pnpm_full : Prop := ∀ (decode : Str → Option (Option PnpmLockfile)) (content : Option Str)
  (i i' : SMap PnpmLockPackage → SMap PnpmLockPackage), IsOrder i → IsOrder i' →
  SameParse (parsePnpmLock decode i content) (parsePnpmLock decode i' content)

/-- The claim for bun.lock. -/
def C39_bun_full : Prop := ∀ (toJSON : Str → Str) (isFloat : Str → Bool) (content : Option Str)
  (i i' : SMap (List JVal) → SMap (List JVal)), IsOrder i → IsOrder i' →
  SameParse (parseBunLock toJSON isFloat i content) (parseBunLock toJSON isFloat i' content)

/-- The claim for go.mod. -/
def C39_go_full : Prop := ∀ (decode : Str → Option GoModFile) (content : Option Str)
  (i i' : SMap PackageDetails → SMap PackageDetails) (o o' : List PackageDetails → List PackageDetails), IsOrder i →
  IsOrder i' → IsOrder o → IsOrder o' →
  SameParse (some (parseGoLock decode i o content)) (some (parseGoLock decode i' o' content))

/-- The claim for pom.xml. -/
def C39_maven_full : Prop := ∀ (decode : Str → Option MavenLockFile) (content : Option Str)
  (o o' : List PackageDetails → List PackageDetails), IsOrder o → IsOrder o' →
  SameParse (some (parseMavenLock decode o content)) (some (parseMavenLock decode o' content))

/-- The full claim. False: `C39_counterexample`. -/
def C39_full : Prop := C39_npm_full ∧ C39_nuget_full ∧ C39_pipenv_full ∧ C39_pubspec_full ∧ C39_renv_full ∧ C39_pnpm_full ∧
  C39_bun_full ∧ C39_go_full ∧ C39_maven_full

/-! ## The formats for which the claim holds -/

theorem C39_pubspec : C39_pubspec_full := by
  intro yaml content i i' hi hi'
  unfold parsePubspecLock
  split
  · exact SameParse.refl _
  · exact SameParse.refl _
  · split
    · exact SameParse.refl _
    · exact SameParse.refl _
    · exact ⟨((hi _).trans (hi' _).symm).map _, rfl⟩

theorem C39_renv : C39_renv_full := by
  intro content i i' hi hi'
  unfold parseRenvLock
  split
  · exact SameParse.refl _
  · split
    · exact SameParse.refl _
    · exact SameParse.refl _
    · refine ⟨?_, rfl⟩
      dsimp only
      rw [MapOrder.renvLoop_eq, MapOrder.renvLoop_eq]
      exact ((hi _).trans (hi' _).symm).filterMap _

theorem C39_bun : C39_bun_full := by
  intro toJSON isFloat content i i' hi hi'
  unfold parseBunLock
  split
  · exact SameParse.refl _
  · split
    · exact SameParse.refl _
    · exact SameParse.refl _
    · rename_i packages _
      have hp := (hi (packages.getD [])).trans (hi' (packages.getD [])).symm
      rw [MapOrder.bunLoop_eq, MapOrder.bunLoop_eq]
      by_cases h : ∃ x ∈ i (packages.getD []), x.2 = []
      · rw [if_pos h, if_pos (by obtain ⟨x, hx, e⟩ := h; exact ⟨x, hp.mem_iff.1 hx, e⟩)]
        trivial
      · rw [if_neg h, if_neg (by rintro ⟨x, hx, e⟩; exact h ⟨x, hp.mem_iff.2 hx, e⟩)]
        exact ⟨hp.filterMap _, rfl⟩

theorem C39_maven : C39_maven_full := by
  intro decode content o o' ho ho'
  unfold parseMavenLock
  split
  · exact SameParse.refl _
  · exact ⟨(ho _).trans (ho' _).symm, rfl⟩

/-! ## package-lock.json -/

/-- No two different packages share a key. -/
def NpmKeysOk (l : NpmLockfile) : Prop :=
  match l.packages with
  | some ps => ∀ x ∈ ps, ∀ y ∈ ps, x.1 ≠ [] → y.1 ≠ [] → (npmPackage x.1 x.2).1 = (npmPackage y.1 y.2).1 →
      (npmPackage x.1 x.2).2 = (npmPackage y.1 y.2).2
  | none => ∀ n v n' v' x y, NpmDepIn l.dependencies n v → NpmDepIn l.dependencies n' v' → npmDependency n v = some x →
      npmDependency n' v' = some y → x.1 = y.1 → x.2 = y.2

/-- Missing for the full claim: no two different packages may share a key. -/
theorem C39_npm_partial (content : Option Str) (d d' : NpmDeps → NpmDeps) (p p' : SMap NpmPackage → SMap NpmPackage)
    (o o' : List PackageDetails → List PackageDetails) (hd : IsTreeOrder d) (hd' : IsTreeOrder d') (hp : IsOrder p)
    (hp' : IsOrder p') (ho : IsOrder o) (ho' : IsOrder o')
    (hk : ∀ l, (content.bind Json.parse).bind decNpmLockfile = some (some l) → NpmKeysOk l) :
    SameParse (parseNpmLock d p o content) (parseNpmLock d' p' o' content) := by
  unfold parseNpmLock
  cases content with
  | none => exact SameParse.refl _
  | some c =>
    dsimp only
    rw [Option.bind_some] at hk
    cases hl : (Json.parse c).bind decNpmLockfile with
    | none => exact SameParse.refl _
    | some l =>
      cases l with
      | none => exact SameParse.refl _
      | some l =>
        have hk := hk l hl
        unfold NpmKeysOk at hk
        dsimp only
        unfold parseNpmLockfile
        dsimp only
        cases hpk : l.packages with
        | some ps =>
          rw [hpk] at hk
          simp only [Option.map_some]
          refine ⟨(ho _).trans (List.Perm.trans (List.Perm.map _ ?_) (ho' _).symm), rfl⟩
          refine (Npm.packages_adds [] (p ps)).perm ((Npm.packages_adds [] (p' ps)).congr fun x => ?_) ?_
          · simp only [(hp ps).mem_iff, (hp' ps).mem_iff]
          · rintro _ _ ⟨x, hx, h1, rfl⟩ ⟨y, hy, h2, rfl⟩ e
            exact hk x ((hp ps).mem_iff.1 hx) y ((hp ps).mem_iff.1 hy) h1 h2 e
        | none =>
          rw [hpk] at hk
          simp only [Option.map_none]
          cases h1 : npmDepsLoop [] (d l.dependencies) with
          | none =>
            have h2 : npmDepsLoop [] (d' l.dependencies) = none := by
              obtain ⟨n, v, h, e⟩ := (Npm.loop_none _ _).1 h1
              exact (Npm.loop_none _ _).2 ⟨n, v, (hd' _ _ _).2 ((hd _ _ _).1 h), e⟩
            rw [h2]
            trivial
          | some m =>
            cases h2 : npmDepsLoop [] (d' l.dependencies) with
            | none =>
              obtain ⟨n, v, h, e⟩ := (Npm.loop_none _ _).1 h2
              rw [(Npm.loop_none _ _).2 ⟨n, v, (hd _ _ _).2 ((hd' _ _ _).1 h), e⟩] at h1
              cases h1
            | some m' =>
              refine ⟨(ho _).trans (List.Perm.trans (List.Perm.map _ ?_) (ho' _).symm), rfl⟩
              have e : ∀ x, Npm.FromDeps (d' l.dependencies) x ↔ Npm.FromDeps (d l.dependencies) x := by
                intro x
                unfold Npm.FromDeps
                simp only [hd _ _ _, hd' _ _ _]
              refine (Npm.loop_adds _ _ _ h1).perm ((Npm.loop_adds _ _ _ h2).congr e) ?_
              rintro x y ⟨n, v, hx, ex⟩ ⟨n', v', hy, ey⟩ ek
              exact hk n v n' v' x y ((hd _ _ _).1 hx) ((hd _ _ _).1 hy) ex ey ek

/-- For a file with packages that condition is exact: if two different packages share a key, two orders give different
results. -/
theorem C39_npm_iff (c : Str) (l : NpmLockfile) (ps : SMap NpmPackage) (hl : (Json.parse c).bind decNpmLockfile = some (some l))
    (hpk : l.packages = some ps) :
    NpmKeysOk l ↔ ∀ (p p' : SMap NpmPackage → SMap NpmPackage), IsOrder p → IsOrder p' →
      SameParse (parseNpmLock id p id (some c)) (parseNpmLock id p' id (some c)) := by
  constructor
  · intro h p p' hp hp'
    refine C39_npm_partial _ _ _ _ _ _ _ (fun _ _ _ => Iff.rfl) (fun _ _ _ => Iff.rfl) hp hp' (fun _ => .refl _) (fun _ => .refl _) ?_
    intro l' hl'
    rw [Option.bind_some, hl] at hl'
    cases hl'
    exact h
  · intro h
    unfold NpmKeysOk
    rw [hpk]
    intro x hx y hy hxn hyn hk
    by_cases hxy : x = y
    · rw [hxy]
    have hy' : y ∈ ps.erase x := (List.mem_erase_of_ne (Ne.symm hxy)).2 hy
    let q : List (Str × NpmPackage) := (ps.erase x).erase y
    have hq : (q ++ [x, y]).Perm ps :=
      (List.perm_append_comm (l₁ := q) (l₂ := [x, y])).trans
        (((List.perm_cons_erase hy').symm.cons x).trans (List.perm_cons_erase hx).symm)
    have hq' : (q ++ [y, x]).Perm ps := ((List.Perm.swap x y []).append_left q).trans hq
    have hS := h (fun l => if l = ps then q ++ [x, y] else l) (fun l => if l = ps then q ++ [y, x] else l)
      (fun l => by dsimp only; split <;> simp_all) (fun l => by dsimp only; split <;> simp_all)
    unfold parseNpmLock parseNpmLockfile at hS
    simp only [hl, hpk, Option.map_some, if_true, id] at hS
    have hloop : ∀ (q : SMap NpmPackage) (a b : Str × NpmPackage) (m : SMap PackageDetails), a.1 ≠ [] → b.1 ≠ [] →
        ∃ m' : SMap PackageDetails, npmPackagesLoop m (q ++ [a, b]) = (m'.set (npmPackage a.1 a.2).1 (npmPackage a.1 a.2).2).set
          (npmPackage b.1 b.2).1 (npmPackage b.1 b.2).2 ∧
          npmPackagesLoop m (q ++ [b, a]) = (m'.set (npmPackage b.1 b.2).1 (npmPackage b.1 b.2).2).set
          (npmPackage a.1 a.2).1 (npmPackage a.1 a.2).2 := by
      intro q a b m ha hb
      induction q generalizing m with
      | nil =>
        obtain ⟨a1, a2⟩ := a
        obtain ⟨b1, b2⟩ := b
        exact ⟨m, by simp [npmPackagesLoop, show a1 ≠ [] from ha, show b1 ≠ [] from hb],
          by simp [npmPackagesLoop, show a1 ≠ [] from ha, show b1 ≠ [] from hb]⟩
      | cons z q ih =>
        obtain ⟨z1, z2⟩ := z
        simp only [List.cons_append, npmPackagesLoop]
        split
        · exact ih _
        · exact ih _
    obtain ⟨m', e1, e2⟩ := hloop q x y [] hxn hyn
    rw [e1, e2, hk, MapOrder.set_set, MapOrder.set_set] at hS
    exact (MapOrder.values_set _ _ _ _ hS.1).symm

/-! ## packages.lock.json, Pipfile.lock and go.mod -/

/-- Missing for the full claim: no name may contain `@`. -/
theorem C39_nuget_partial (content : Option Str) (d d' : SMap Str → SMap Str)
    (f f' : SMap (Option (SMap Str)) → SMap (Option (SMap Str))) (o o' : List PackageDetails → List PackageDetails)
    (hd : IsOrder d) (hd' : IsOrder d') (hf : IsOrder f) (hf' : IsOrder f') (ho : IsOrder o) (ho' : IsOrder o')
    (hk : ∀ l, (content.bind Json.parse).bind decNuGetLockfile = some (some l) →
      ∀ x ∈ l.dependencies.getD [], ∀ y ∈ x.2.getD [], '@' ∉ y.1) :
    SameParse (parseNuGetLock d f o content) (parseNuGetLock d' f' o' content) := by
  unfold parseNuGetLock
  cases content with
  | none => exact SameParse.refl _
  | some c =>
    dsimp only
    rw [Option.bind_some] at hk
    cases hl : (Json.parse c).bind decNuGetLockfile with
    | none => exact SameParse.refl _
    | some l =>
      cases l with
      | none => exact SameParse.refl _
      | some l =>
        have hk := hk l hl
        dsimp only
        by_cases hv : l.version ≠ g!"1"
        · rw [if_pos hv, if_pos hv]; exact SameParse.refl _
        · rw [if_neg hv, if_neg hv]
          refine ⟨(ho _).trans (List.Perm.trans (List.Perm.map _ ?_) (ho' _).symm), rfl⟩
          refine (NuGet.loop_adds d hd [] _).perm ((NuGet.loop_adds d' hd' [] _).congr fun x => ?_) ?_
          · simp only [(hf _).mem_iff, (hf' _).mem_iff]
          · rintro _ _ ⟨x, hx, ⟨n, v⟩, hy, rfl⟩ ⟨x', hx', ⟨n', v'⟩, hy', rfl⟩ e
            have := DetailMap.key_inj (d := ⟨n, v, [], [], []⟩) (e := ⟨n', v', [], [], []⟩) e
              (hk x ((hf _).mem_iff.1 hx) _ hy) (hk x' ((hf _).mem_iff.1 hx') _ hy')
            dsimp only at this
            rw [this.1, this.2]

/-- Missing for the full claim: no name may contain `@`. -/
theorem C39_pipenv_partial (content : Option Str) (i i' : SMap Str → SMap Str)
    (o o' : List PackageDetails → List PackageDetails) (hi : IsOrder i) (hi' : IsOrder i') (ho : IsOrder o) (ho' : IsOrder o')
    (hk : ∀ l, (content.bind Json.parse).bind decPipenvLock = some (some l) →
      ∀ x ∈ l.packages.getD [] ++ l.packagesDev.getD [], '@' ∉ x.1) :
    SameParse (parsePipenvLock i o content) (parsePipenvLock i' o' content) := by
  unfold parsePipenvLock
  cases content with
  | none => exact SameParse.refl _
  | some c =>
    dsimp only
    rw [Option.bind_some] at hk
    cases hl : (Json.parse c).bind decPipenvLock with
    | none => exact SameParse.refl _
    | some l =>
      cases l with
      | none => exact SameParse.refl _
      | some l =>
        have hk := hk l hl
        dsimp only
        have hnone : ∀ (s : SMap Str) (m m' : SMap PackageDetails), pipenvLoop m (i s) = none → pipenvLoop m' (i' s) = none := by
          intro s m m' h
          obtain ⟨x, hx, hc⟩ := (Pipenv.loop_none _ _).1 h
          exact (Pipenv.loop_none _ _).2 ⟨x, (hi' s).mem_iff.2 ((hi s).mem_iff.1 hx), hc⟩
        have hnone' : ∀ (s : SMap Str) (m m' : SMap PackageDetails), pipenvLoop m (i' s) = none → pipenvLoop m' (i s) = none := by
          intro s m m' h
          obtain ⟨x, hx, hc⟩ := (Pipenv.loop_none _ _).1 h
          exact (Pipenv.loop_none _ _).2 ⟨x, (hi s).mem_iff.2 ((hi' s).mem_iff.1 hx), hc⟩
        cases h1 : pipenvLoop [] (i (l.packages.getD [])) with
        | none => rw [hnone _ _ [] h1]; trivial
        | some m1 =>
          cases h1' : pipenvLoop [] (i' (l.packages.getD [])) with
          | none => rw [hnone' _ _ [] h1'] at h1; cases h1
          | some m1' =>
            rw [Option.bind_some, Option.bind_some]
            cases h2 : pipenvLoop m1 (i (l.packagesDev.getD [])) with
            | none => rw [hnone _ _ m1' h2]; trivial
            | some m2 =>
              cases h2' : pipenvLoop m1' (i' (l.packagesDev.getD [])) with
              | none => rw [hnone' _ _ m1 h2'] at h2; cases h2
              | some m2' =>
                refine ⟨(ho _).trans (List.Perm.trans (List.Perm.map _ ?_) (ho' _).symm), rfl⟩
                refine ((Pipenv.loop_adds _ _ _ h1).trans (Pipenv.loop_adds _ _ _ h2)).perm
                  (((Pipenv.loop_adds _ _ _ h1').trans (Pipenv.loop_adds _ _ _ h2')).congr fun x => ?_) ?_
                · unfold Pipenv.Reads
                  simp only [(hi _).mem_iff, (hi' _).mem_iff]
                · have hr : ∀ x, Pipenv.Reads (i (l.packages.getD [])) x ∨ Pipenv.Reads (i (l.packagesDev.getD [])) x →
                      ∃ n v, '@' ∉ n ∧ x = (n ++ g!"@" ++ v, pkg g!"PyPI" n v []) := by
                    rintro x (⟨n, w, v, h, _, _, e⟩ | ⟨n, w, v, h, _, _, e⟩)
                    · exact ⟨n, v, hk (n, w) (List.mem_append_left _ ((hi _).mem_iff.1 h)), e⟩
                    · exact ⟨n, v, hk (n, w) (List.mem_append_right _ ((hi _).mem_iff.1 h)), e⟩
                  intro x y hx hy e
                  obtain ⟨n, v, hn, rfl⟩ := hr x hx
                  obtain ⟨n', v', hn', rfl⟩ := hr y hy
                  have := DetailMap.key_inj (d := ⟨n, v, [], [], []⟩) (e := ⟨n', v', [], [], []⟩) e hn hn'
                  dsimp only at this
                  rw [this.1, this.2]

/-- Missing for the full claim: no path of a module that is required or takes the place of another may contain `@`. -/
theorem C39_go_partial (decode : Str → Option GoModFile) (content : Option Str)
    (i i' : SMap PackageDetails → SMap PackageDetails) (o o' : List PackageDetails → List PackageDetails) (hi : IsOrder i)
    (hi' : IsOrder i') (ho : IsOrder o) (ho' : IsOrder o')
    (hk : ∀ f, content.bind decode = some f → (∀ m ∈ f.require, '@' ∉ m.path) ∧ ∀ r ∈ f.replace, '@' ∉ r.new.path) :
    SameParse (some (parseGoLock decode i o content)) (some (parseGoLock decode i' o' content)) := by
  unfold parseGoLock
  cases hf : content.bind decode with
  | none => exact SameParse.refl _
  | some f =>
    obtain ⟨hk1, hk2⟩ := hk f hf
    dsimp only
    have hn := (GoMod.require_adds [] f.require).2.2 (by simp)
    refine ⟨(ho _).trans (List.Perm.trans (List.Perm.map _ ?_) (ho' _).symm), rfl⟩
    rw [GoMod.replace_loop hi _ _ hn, GoMod.replace_loop hi' _ _ hn]
    refine (GoMod.dedup_adds _ hi).perm (GoMod.dedup_adds _ hi') ?_
    have hc : ∀ y ∈ (goRequireLoop [] f.require).map (fun x => (x.1, GoMod.steps f.replace x.1 x.2)),
        ∃ m : GoModule, '@' ∉ m.path ∧ y.2 = goDetails m := by
      intro y hy
      obtain ⟨x, hx, rfl⟩ := List.mem_map.1 hy
      rcases MapOrder.steps_cases f.replace x.1 x.2 with h | ⟨r, hr, h⟩
      · rcases (GoMod.require_adds [] f.require).1 x hx with h' | ⟨m, hm, rfl⟩
        · cases h'
        · exact ⟨m, hk1 m hm, h⟩
      · exact ⟨_, hk2 r hr, h⟩
    rintro _ _ ⟨x, hx, rfl⟩ ⟨y, hy, rfl⟩ e
    obtain ⟨m, hm, ex⟩ := hc x hx
    obtain ⟨m', hm', ey⟩ := hc y hy
    dsimp only at e ⊢
    have := DetailMap.key_inj (d := x.2) (e := y.2) e (by rw [ex]; exact hm) (by rw [ey]; exact hm')
    rw [ex, ey] at this ⊢
    unfold goDetails at this ⊢
    dsimp only at this
    rw [this.1, this.2]

/-! ## pnpm-lock.yaml -/

/-- Missing for the full claim: not both a key that panics and one that is refused. -/
theorem C39_pnpm_partial (decode : Str → Option (Option PnpmLockfile)) (content : Option Str)
    (i i' : SMap PnpmLockPackage → SMap PnpmLockPackage) (hi : IsOrder i) (hi' : IsOrder i')
    (hk : ∀ l, content.bind decode = some (some l) →
      ¬ ((∃ x ∈ l.packages, extractPnpm l.isNine x.1 = none) ∧ ∃ x ∈ l.packages, extractPnpm l.isNine x.1 = some none)) :
    SameParse (parsePnpmLock decode i content) (parsePnpmLock decode i' content) := by
  unfold parsePnpmLock
  cases hd : content.bind decode with
  | none => exact SameParse.refl _
  | some l =>
    dsimp only
    have hk : ¬ ((∃ x ∈ (l.getD {}).packages, extractPnpm (l.getD {}).isNine x.1 = none) ∧
        ∃ x ∈ (l.getD {}).packages, extractPnpm (l.getD {}).isNine x.1 = some none) := by
      cases l with
      | none => rintro ⟨⟨x, hx, _⟩, _⟩; cases hx
      | some l => exact hk l hd
    generalize l.getD {} = l at hk
    have hm := fun x => (hi l.packages).mem_iff (a := x)
    have hm' := fun x => (hi' l.packages).mem_iff (a := x)
    by_cases hp : ∃ x ∈ l.packages, extractPnpm l.isNine x.1 = none
    · have hv : ∀ x ∈ l.packages, extractPnpm l.isNine x.1 ≠ some none := fun x hx e => hk ⟨hp, x, hx, e⟩
      obtain ⟨x, hx, e⟩ := hp
      rw [MapOrder.pnpm_panic _ _ (fun y hy => hv y ((hm y).1 hy)) ⟨x, (hm x).2 hx, e⟩,
        MapOrder.pnpm_panic _ _ (fun y hy => hv y ((hm' y).1 hy)) ⟨x, (hm' x).2 hx, e⟩]
      trivial
    · have hn : ∀ x ∈ l.packages, extractPnpm l.isNine x.1 ≠ none := fun x hx e => hp ⟨x, hx, e⟩
      by_cases hv : ∃ x ∈ l.packages, extractPnpm l.isNine x.1 = some none
      · obtain ⟨x, hx, e⟩ := hv
        rw [MapOrder.pnpm_invalid _ _ (fun y hy => hn y ((hm y).1 hy)) ⟨x, (hm x).2 hx, e⟩,
          MapOrder.pnpm_invalid _ _ (fun y hy => hn y ((hm' y).1 hy)) ⟨x, (hm' x).2 hx, e⟩]
        exact SameParse.refl _
      · have hg : ∀ x ∈ l.packages, ∃ nv, extractPnpm l.isNine x.1 = some (some nv) := by
          intro x hx
          cases e : extractPnpm l.isNine x.1 with
          | none => exact absurd e (hn x hx)
          | some o =>
            cases o with
            | none => exact absurd ⟨x, hx, e⟩ hv
            | some nv => exact ⟨nv, rfl⟩
        rw [MapOrder.pnpm_good _ _ (fun y hy => hg y ((hm y).1 hy)), MapOrder.pnpm_good _ _ (fun y hy => hg y ((hm' y).1 hy))]
        exact ⟨((hi _).trans (hi' _).symm).filterMap _, rfl⟩

/-- That condition is exact. -/
theorem C39_pnpm_iff (decode : Str → Option (Option PnpmLockfile)) (c : Str) (l : PnpmLockfile) (hd : decode c = some (some l)) :
    (∀ (i i' : SMap PnpmLockPackage → SMap PnpmLockPackage), IsOrder i → IsOrder i' →
      SameParse (parsePnpmLock decode i (some c)) (parsePnpmLock decode i' (some c))) ↔
    ¬ ((∃ x ∈ l.packages, extractPnpm l.isNine x.1 = none) ∧ ∃ x ∈ l.packages, extractPnpm l.isNine x.1 = some none) := by
  constructor
  · rintro h ⟨⟨x, hx, ex⟩, ⟨y, hy, ey⟩⟩
    have := h (fun l => if x ∈ l then x :: l.erase x else l) (fun l => if y ∈ l then y :: l.erase y else l)
      (fun l => by
        dsimp only
        split
        · exact (List.perm_cons_erase ‹_›).symm
        · exact List.Perm.refl _)
      (fun l => by
        dsimp only
        split
        · exact (List.perm_cons_erase ‹_›).symm
        · exact List.Perm.refl _)
    unfold parsePnpmLock at this
    simp only [Option.bind_some, hd, Option.getD_some, if_pos hx, if_pos hy] at this
    obtain ⟨x1, x2⟩ := x
    obtain ⟨y1, y2⟩ := y
    simp only [pnpmLoop, show extractPnpm l.isNine x1 = none from ex, show extractPnpm l.isNine y1 = some none from ey] at this
    exact this
  · intro h i i' hi hi'
    refine C39_pnpm_partial decode _ i i' hi hi' fun l' hl' => ?_
    rw [Option.bind_some, hd] at hl'
    cases hl'
    exact h

/-! ## Where it fails -/

theorem isOrder_id {α : Type} : IsOrder (id : List α → List α) := fun _ => List.Perm.refl _
theorem isOrder_reverse {α : Type} : IsOrder (List.reverse : List α → List α) := fun _ => List.reverse_perm _

theorem isTreeOrder_id : IsTreeOrder id := fun _ _ _ => Iff.rfl

theorem C39_npm_counterexample : ¬ C39_npm_full := by
  intro h
  have h1 : parseNpmLock id List.reverse id (some C47_witness) = some ([npm g!"a" g!"1" g!"abc"], false) := by
    decide +kernel
  have h2 := C47_witness_result
  generalize C47_witness = c at h1 h2
  have h := h (some c) id id id List.reverse id id isTreeOrder_id isTreeOrder_id isOrder_id isOrder_reverse
    isOrder_id isOrder_id
  rw [h1, h2] at h
  exact absurd (List.perm_singleton.1 h.1) (by decide)

theorem C39_counterexample : ¬ C39_full := fun h => C39_npm_counterexample h.1

/-- Two packages with one key. -/
def C39_nuget_text : Str :=
  g!"{\"version\": 1, \"dependencies\": {\"f\": {\"a@1\": {\"resolved\": \"2\"}, \"a\": {\"resolved\": \"1@2\"}}}}"

theorem C39_nuget_counterexample : ¬ C39_nuget_full := by
  intro h
  have h := h (some C39_nuget_text)
    id List.reverse id id id id isOrder_id isOrder_reverse isOrder_id isOrder_id isOrder_id isOrder_id
  rw [show parseNuGetLock id id id (some C39_nuget_text) =
      some ([pkg g!"NuGet" g!"a" g!"1@2" []], false) by decide +kernel,
    show parseNuGetLock List.reverse id id (some C39_nuget_text) =
      some ([pkg g!"NuGet" g!"a@1" g!"2" []], false) by decide +kernel] at h
  exact absurd (List.perm_singleton.1 h.1) (by decide)

/-- Two packages with one key. -/
def C39_pipenv_text : Str := g!"{\"default\": {\"a@1\": {\"version\": \"==2\"}, \"a\": {\"version\": \"==1@2\"}}}"

theorem C39_pipenv_counterexample : ¬ C39_pipenv_full := by
  intro h
  have h := h (some C39_pipenv_text)
    id List.reverse id id isOrder_id isOrder_reverse isOrder_id isOrder_id
  rw [show parsePipenvLock id id (some C39_pipenv_text) =
      some ([pkg g!"PyPI" g!"a" g!"1@2" []], false) by decide +kernel,
    show parsePipenvLock List.reverse id (some C39_pipenv_text) =
      some ([pkg g!"PyPI" g!"a@1" g!"2" []], false) by decide +kernel] at h
  exact absurd (List.perm_singleton.1 h.1) (by decide)

theorem C39_go_counterexample : ¬ C39_go_full := by
  intro h
  have h := h (fun _ => some ⟨[⟨g!"a@1", g!"v2"⟩, ⟨g!"a", g!"v1@2"⟩], [⟨⟨g!"a", []⟩, ⟨g!"a", g!"1@2"⟩⟩]⟩) (some [])
    id List.reverse id id isOrder_id isOrder_reverse isOrder_id isOrder_id
  rw [show parseGoLock (fun _ => some ⟨[⟨g!"a@1", g!"v2"⟩, ⟨g!"a", g!"v1@2"⟩], [⟨⟨g!"a", []⟩, ⟨g!"a", g!"1@2"⟩⟩]⟩) id id (some []) =
      ([pkg g!"Go" g!"a" g!"1@2" []], false) by decide +kernel,
    show parseGoLock (fun _ => some ⟨[⟨g!"a@1", g!"v2"⟩, ⟨g!"a", g!"v1@2"⟩], [⟨⟨g!"a", []⟩, ⟨g!"a", g!"1@2"⟩⟩]⟩) List.reverse id (some []) =
      ([pkg g!"Go" g!"a@1" g!"2" []], false) by decide +kernel] at h
  exact absurd (List.perm_singleton.1 h.1) (by decide)

theorem C39_pnpm_counterexample : ¬ C39_pnpm_full := by
  intro h
  have h := h (fun _ => some (some ⟨false, [(g!"/@a", {}), (g!"a", {})]⟩)) (some []) id List.reverse isOrder_id isOrder_reverse
  rw [show parsePnpmLock (fun _ => some (some ⟨false, [(g!"/@a", {}), (g!"a", {})]⟩)) id (some []) = none by decide +kernel,
    show parsePnpmLock (fun _ => some (some ⟨false, [(g!"/@a", {}), (g!"a", {})]⟩)) List.reverse (some []) = some ([], true) by
      decide +kernel] at h
  exact h

example : ((Json.parse g!"{\"packages\": {\"a\": {\"version\": \"1\"}, \"b\": {\"version\": \"1\"}}}").bind decNpmLockfile).map (·.map (·.packages)) =
    some (some (some [(g!"a", ⟨[], g!"1", []⟩), (g!"b", ⟨[], g!"1", []⟩)])) := by decide +kernel
example (t : NpmDeps) : NpmKeysOk ⟨t, some [(g!"a", ⟨[], g!"1", []⟩), (g!"b", ⟨[], g!"1", []⟩)]⟩ := by
  unfold NpmKeysOk
  dsimp only
  decide +kernel
example : ∀ x ∈ [(g!"a", g!"1"), (g!"b", g!"2")], '@' ∉ x.1 := by decide
example : (∀ m ∈ [(⟨g!"a", g!"v1"⟩ : GoModule)], '@' ∉ m.path) ∧
    ∀ r ∈ [(⟨⟨g!"a", []⟩, ⟨g!"b", g!"v2"⟩⟩ : GoReplace)], '@' ∉ r.new.path := by decide
example : ¬ ((∃ x ∈ [(g!"/a@1", ({} : PnpmLockPackage)), (g!"a", {})], extractPnpm false x.1 = none) ∧
    ∃ x ∈ [(g!"/a@1", ({} : PnpmLockPackage)), (g!"a", {})], extractPnpm false x.1 = some none) := by decide +kernel

end Osv
