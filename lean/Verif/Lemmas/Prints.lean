import Verif.Model.Main
/-!
# Whatever the command does, it prints messages

Every reporter that the command ends with comes from the one it starts with by printing messages one after the other.
-/
namespace Osv

/-- `r'` comes from `r` by printing. -/
inductive Prints : RState → RState → Prop
  | refl (r : RState) : Prints r r
  | text {r r' : RState} (m : TextMsg) : Prints r r' → Prints r (r'.printText m)
  | error {r r' : RState} (m : ErrMsg) : Prints r r' → Prints r (r'.printError m)
  | result {r r' : RState} (x : Result) : Prints r r' → Prints r (r'.printResult x)
  | warn {r r' : RState} (n : Str) (b : Bool) : Prints r r' → Prints r (r'.warn n b)

namespace Prints

theorem trans {a b c : RState} (h : Prints a b) (h' : Prints b c) : Prints a c := by
  induction h' with
  | refl => exact h
  | text m _ ih => exact .text m ih
  | error m _ ih => exact .error m ih
  | result x _ ih => exact .result x ih
  | warn n b _ ih => exact .warn n b ih

theorem foldl {α β : Type} (g : α → β → α) (r : α → RState) (h : ∀ a b, Prints (r a) (r (g a b))) (l : List β) (a : α) :
    Prints (r a) (r (l.foldl g a)) := by
  induction l generalizing a with
  | nil => exact .refl _
  | cons b l ih => exact (h a b).trans (ih _)

theorem dropped (r : RState) (p : Str) (es : List RawDBErr) : Prints r (printDropped r p es) :=
  foldl (fun r e => RState.printError r (.invalidDatabase p e)) id (fun _ _ => .error _ (.refl _)) es r

theorem find (env : Env) (r : RState) (args : List Str) (g : Str) : Prints r (findAllLockfiles env r args g).1 := by
  unfold findAllLockfiles
  split
  · exact .refl _
  · refine foldl (findStep env g) (·.1) (fun acc a => ?_) args (r, [], false)
    unfold findStep
    dsimp only
    generalize findLockfiles env (splitParseAs a).2 _ = res
    split
    · exact .error _ (.refl _)
    · exact .refl _

theorem read (S : Sorter) (env : Env) (r : RState) (paths args : List Str) (cl : Bool) (c : Config) :
    Prints r (readAllLockfiles S env r paths args cl c).r := by
  unfold readAllLockfiles
  refine foldl (readStep S env args cl) (·.r) (fun s p => ?_) paths ⟨r, [c], 0, []⟩
  unfold readStep
  dsimp only
  split
  · split
    · exact .refl _
    · exact dropped _ _ _
  · split <;> exact .refl _

theorem config (env : Env) (f : Flags) (r : RState) : Prints r (startConfig env f r).1 := by
  unfold startConfig
  split
  · exact .refl _
  · split
    · split
      · exact .error _ (.refl _)
      · exact dropped _ _ _
    · exact .refl _

theorem load (env : Env) (f : Flags) (r : RState) (cs : List DBConfig) (names : List Str) :
    Prints r (loadDatabases env f r cs names).1 := by
  unfold loadDatabases
  split
  · exact .refl _
  · refine .text _ (Prints.trans (.text .loadedHeader (.refl _)) (foldl (loadStep env f names) (·.1) (fun acc c => ?_) cs (r.printText .loadedHeader, [], false)))
    unfold loadStep
    dsimp only
    split
    · exact .error _ (.warn _ _ (.text _ (.refl _)))
    · exact .text _ (.warn _ _ (.text _ (.refl _)))

theorem prepare (S : Sorter) (env : Env) (f : Flags) (r : RState) (paths : List Str) (c : Config) (cl : Bool) :
    Prints r (prepare S env f r paths c cl).1.r := (read S env r paths f.args cl c).trans (load env f _ _ _)

theorem check (n : Nat) (l : Lockfile) (dbs : List DB) (r : RState) : Prints r (checkAll n l dbs r).1 := by
  refine foldl (checkStep n l) (·.1) (fun acc db => ?_) dbs (r, [])
  unfold checkStep
  dsimp only
  split
  · exact .error _ (.warn _ _ (.refl _))
  · exact .warn _ _ (.refl _)

theorem loopStep (f : Flags) (dbs : List DB) (s : LoopState) (x : FileEntry) : Prints s.r (loopStep f dbs s x).r := by
  have hb : Prints s.r (if s.i ≥ 1 then s.r.printText .blank else s.r) := by
    split
    · exact .text _ (.refl _)
    · exact .refl _
  unfold Osv.loopStep
  generalize (if s.i ≥ 1 then s.r.printText .blank else s.r) = r0 at hb
  refine hb.trans ?_
  dsimp only
  split
  · exact .error _ (.refl _)
  · refine Prints.trans (.text (.found x.lockf.filePath x.lockf.packages.length) (.refl _)) ?_
    split
    · exact .result _ (.refl _)
    · refine .result _ ?_
      unfold checkLockfile
      dsimp only
      refine Prints.trans ?_ (check _ _ _ _)
      refine .text _ (Prints.trans ?_ (foldl (fun (r : RState) (db : DB) => r.printText (.usingDb db.name db.info)) id
        (fun _ _ => .text _ (.refl _)) _ _))
      unfold printUsingConfig
      dsimp only [id]
      generalize (if f.noConfigIgnores = true then _ else _ : Config) = c
      split
      · exact .text _ (.refl _)
      · exact .refl _

theorem write (env : Env) (r : RState) (per : SMap (List Str)) : Prints r (writeUpdatedConfigs env r per).1 := by
  unfold writeUpdatedConfigs
  dsimp only
  refine Prints.trans (b := if per.length ≠ 0 then r.printText .blank else r) ?_ ?_
  · split
    · exact .text _ (.refl _)
    · exact .refl _
  · generalize (if per.length ≠ 0 then r.printText .blank else r) = r0
    refine foldl _ (fun acc : RState × (Str → ConfigFile) => acc.1) (fun acc e => ?_) per (r0, env.config)
    dsimp only
    split
    · exact .text _ (.refl _)
    · exact .error _ (.refl _)

theorem body (S : Sorter) (env : Env) (f : Flags) : Prints { outputAsJSON := f.json } (runBody S env f).r := by
  unfold runBody
  dsimp only
  split
  · exact .text _ (.refl _)
  split
  · exact Prints.trans (.text _ (.refl _)) (foldl (fun r e => RState.printText r (.ecosystem (some e))) id (fun _ _ => .text _ (.refl _)) _ _)
  split
  · exact Prints.trans (.error _ (.refl _)) (foldl (fun r e => RState.printError r (.parserName e)) id (fun _ _ => .error _ (.refl _)) _ _)
  have h1 := find env { outputAsJSON := f.json } f.args f.parseAs
  generalize findAllLockfiles env { outputAsJSON := f.json } f.args f.parseAs = found at h1
  split
  · exact .error _ h1
  have h2 := config env f found.1
  generalize startConfig env f found.1 = sc at h2
  obtain ⟨r, o⟩ := sc
  cases o with
  | none => exact h1.trans h2
  | some cc =>
    obtain ⟨c, cl⟩ := cc
    dsimp only
    refine (h1.trans h2).trans ((prepare S env f r found.2.1 c cl).trans ?_)
    generalize Osv.prepare S env f r found.2.1 c cl = p
    refine (foldl (Osv.loopStep f p.2.1) (·.r) (fun s x => loopStep f p.2.1 s x) p.2.2 p.1).trans ?_
    unfold finish
    dsimp only
    split
    · exact write _ _ _
    · exact .refl _

/-- Messages go to the stream that belongs to the mode. -/
theorem streams {r r' : RState} (h : Prints r r') (s : Stream) (hs : s = if r.outputAsJSON then .stderr else .stdout)
    (h0 : ∀ s' m, .text s' m ∈ r.events → s' = s) :
    r'.outputAsJSON = r.outputAsJSON ∧ ∀ s' m, .text s' m ∈ r'.events → s' = s := by
  induction h with
  | refl => exact ⟨rfl, h0⟩
  | text m _ ih =>
    refine ⟨ih.1, fun s' m' hm => ?_⟩
    rcases List.mem_append.1 hm with hm | hm
    · exact ih.2 _ _ hm
    · rw [List.mem_singleton] at hm
      injection hm with h1 h2
      rw [h1, hs, ih.1]
  | error m _ ih =>
    refine ⟨ih.1, fun s' m' hm => ?_⟩
    rcases List.mem_append.1 hm with hm | hm
    · exact ih.2 _ _ hm
    · cases List.mem_singleton.1 hm
  | @result r' x _ ih =>
    unfold RState.printResult
    split
    · exact ih
    · refine ⟨ih.1, fun s' m' hm => ?_⟩
      rcases List.mem_append.1 hm with hm | hm
      · exact ih.2 _ _ hm
      · cases List.mem_singleton.1 hm
  | @warn r' n b _ ih =>
    cases b
    · exact ih
    · refine ⟨ih.1, fun s' m' hm => ?_⟩
      rcases List.mem_append.1 hm with hm | hm
      · exact ih.2 _ _ hm
      · cases List.mem_singleton.1 hm

end Prints
end Osv
