import Verif.Lemmas.Transcript
import Verif.Lemmas.Databases
import Verif.Props.C23Codes
import Verif.Props.C80
/-! # C97 Everything that is written, in order, and where -/
namespace Osv
open Spec Str

theorem transcript_run (W : Words) (S : Sorter) (env : Env) (f : Flags) :
    transcript W (run S env f).events = transcript W (runBody S env f).r.events ++ saidDocument W f (shown (run S env f).events) := by
  unfold saidDocument
  cases hj : f.json with
  | false =>
    have hev : (run S env f).events = (runBody S env f).r.events := by
      unfold run; dsimp only; rw [hj]; rfl
    rw [hev]; simp
  | true =>
    obtain ⟨rs, h1, h2⟩ := C24_json S env f hj
    have hsh : shown (run S env f).events = rs := by
      rw [shown_stdout, h1]; simp [shown, resultsOf]
    have hev : (run S env f).events = (runBody S env f).r.events ++ [.json (runBody S env f).r.results] := by
      unfold run; dsimp only; rw [hj]; rfl
    rw [hev, List.getLast?_concat] at h2
    injection h2 with h2
    rw [hsh, hev, Transcript.said_append, h2]
    rfl

theorem stream_transcript (W : Words) (s : Stream) (es : List Event) (h : es.filterMap (updateText W s) = []) :
    streamText W s es = (transcript W es).on s := by
  rw [Transcript.streams, h]; simp [sortStr, insertionSort]

/-- **C97.** When the program gets past its arguments, what is written is, in order: which paths cannot be opened, what is
wrong in the configs, which databases are loaded, a part for each file with empty lines between them, and the document if
`--json` is given. All messages are on stdout, or on stderr with `--json`; errors and diagnostics are always on stderr. -/
theorem C97_started (W : Words) (S : Sorter) (env : Env) (f : Flags) (hs : Started f (run S env f).events) :
    ∃ (p : LoopState × List DB × List FileEntry) (parts gap : Said), runPrep S env f = .inr p ∧
      transcript W (run S env f).events = saidPaths W env f ++ saidConfig W env f ++
        saidLocal W env f (findAllLockfiles env { outputAsJSON := f.json } f.args f.parseAs).2.1 ++
        saidLoads W env f (allPackageNames env (readOf S env f).files) (neededConfigs env f (readOf S env f)) ++
        parts ++ gap ++ saidDocument W f (shown (run S env f).events) ∧
      SaidFiles W f (fun x => p.1.cells.getD x.config {}) (fun c => forConfigs p.2.1 c.databases) 0 (readOf S env f).files
        (shown (run S env f).events) parts ∧
      ((f.listPackages = false ∧ f.updateConfigIgnores = true ∧ ∃ q ∈ configsUsed S env f, q ≠ []) → gap = [(textStream f, g!"\n")]) ∧
      (¬ (f.listPackages = false ∧ f.updateConfigIgnores = true ∧ ∃ q ∈ configsUsed S env f, q ≠ []) → gap = []) := by
  obtain ⟨p, hp⟩ := started_go S env f hs
  obtain ⟨hinv, hi, hper, hsh⟩ := prep_inv S env f p hp
  obtain ⟨r1, r2, r3⟩ := prep_read S env f p hp
  obtain ⟨g1, -, -, g4, g5, -⟩ := runBody_go S env f p hp
  have o : Transcript.Adds W { outputAsJSON := f.json } p.1.r (saidPaths W env f ++ saidConfig W env f ++
        saidLocal W env f (findAllLockfiles env { outputAsJSON := f.json } f.args f.parseAs).2.1 ++
        saidLoads W env f (allPackageNames env (readOf S env f).files) (neededConfigs env f (readOf S env f))) := by
    clear hinv hi hper hsh r1 r2 r3 g1 g4 g5 hs
    have a1 := Transcript.adds_find W env f { outputAsJSON := f.json }
    unfold runPrep at hp
    unfold readOf
    dsimp only at hp ⊢
    generalize findAllLockfiles env { outputAsJSON := f.json } f.args f.parseAs = found at *
    split at hp
    · cases hp
    split at hp
    · cases hp
    split at hp
    · cases hp
    split at hp
    · cases hp
    obtain ⟨b1, b2⟩ := Transcript.adds_config W env f found.1
    rcases hst : startConfig env f found.1 with ⟨r, o⟩
    rw [hst] at hp b1 b2
    cases o with
    | none => cases hp
    | some cc =>
      obtain ⟨c, cl⟩ := cc
      dsimp only at hp b1 ⊢
      cases hp
      have a2 := (a1.trans b1).trans (Transcript.adds_read W S env found.2.1 f.args cl c r)
      have hcl : Transcript.saidRead W env cl found.2.1 = saidLocal W env f found.2.1 := by
        unfold Transcript.saidRead saidLocal
        have := b2 c cl rfl
        by_cases h : f.listPackages = true ∨ f.noConfig = true ∨ f.configPath ≠ []
        · rw [if_pos h, if_neg (fun e => this.1 e h)]
        · rw [if_neg h, if_pos (this.2 h)]; rfl
      rw [hcl] at a2
      exact a2.trans (Transcript.adds_databases W env f _ a2.1 _ _)
  obtain ⟨y, y1, y2⟩ := Transcript.adds_loop W f p.2.1 p.1.cells p.2.2 p.1 (fun _ => CfgSame.refl _ _) o.1
  rw [hi] at y1
  have hused : configsUsed S env f = usedPaths p.1.cells p.2.2 := by unfold configsUsed; rw [hp]
  have hn := loopPer_nil f p.2.1 p.1.cells 0 [] p.2.2
  rw [← hused] at hn
  refine ⟨p, y, if loopPer f p.2.1 p.1.cells 0 [] p.2.2 = [] ∨ f.updateConfigIgnores = false
    then [] else [(textStream f, g!"\n")], hp, ?_, ?_, ?_, ?_⟩
  · rw [transcript_run, g4]
    congr 1
    have ol := o.trans y2
    have hnil : transcript W ({ outputAsJSON := f.json } : RState).events = [] := rfl
    unfold finish
    dsimp only
    cases hu : f.updateConfigIgnores with
    | false =>
      simp only [Bool.false_eq_true, if_false, or_true, if_true, List.append_nil]
      rw [ol.2, hnil, List.nil_append]
    | true =>
      simp only [if_true, Bool.true_eq_false, or_false]
      rw [(ol.trans (Transcript.adds_write W env f _ ol.1 _)).2, hnil, List.nil_append, g5]
  · rw [run_shown, g1, ← r1]
    exact y1
  · intro h
    rw [if_neg]
    rintro (h' | h')
    · exact (hn.1 h').2 h
    · rw [h.2.1] at h'; cases h'
  · intro h
    rw [if_pos (.inl (hn.2 ⟨rfl, h⟩))]

/-- **C97** (streams). A stream shows its share of the transcript, and then, in the order of the text, its lines about the
configs that were updated or could not be. -/
theorem C97_streams (W : Words) (S : Sorter) (env : Env) (f : Flags) (s : Stream) :
    streamText W s (run S env f).events = (transcript W (run S env f).events).on s ++
      (sortStr ((run S env f).events.filterMap (updateText W s))).flatten := Transcript.streams W s _

/-- **C97** (parsers). The names are those of all parsers, and whatever order the map of parsers is gone through, sorting them
gives this list. -/
theorem C97_parsers (l : List Str) (hp : l.Perm parserNames)
    (hsorted : l.Pairwise fun a b => Str.lt (Str.toLower b) (Str.toLower a) = false) : l = parserList := by
  have hm : (l.map Str.toLower).Perm (parserNames.map Str.toLower) := hp.map _
  have h1 : (l.map Str.toLower).Pairwise Str.Le := List.pairwise_map.2 hsorted
  have h2 : (parserList.map Str.toLower).Pairwise Str.Le := by
    have : ∀ a b : Str, Decidable (Str.Le a b) := fun a b => by unfold Str.Le; infer_instance
    unfold Str.Le; decide +kernel
  have hpl : parserList.Perm parserNames := by decide +kernel
  have hmap := sorted_unique (hm.trans (hpl.map _).symm) h1 h2
  have hinj : ∀ a ∈ parserNames, ∀ b ∈ parserNames, Str.toLower a = Str.toLower b → a = b := by decide +kernel
  have hlen : l.length = parserList.length := by simpa using congrArg List.length hmap
  refine List.ext_getElem hlen fun i h h' => ?_
  refine hinj _ (hp.mem_iff.1 (List.getElem_mem h)) _ (hpl.mem_iff.1 (List.getElem_mem h')) ?_
  have := congrArg (fun m : List Str => m[i]?) hmap
  simpa [h, h'] using this

theorem listParsers_eq : listParsers = parserList := by decide +kernel

theorem adds_parsers (W : Words) (l : List Str) (r : RState) :
    Transcript.Adds W r (l.foldl (fun r p => r.printError (.parserName p)) r) (l.map fun n => (.stderr, g!"  " ++ n ++ g!"\n")) := by
  induction l generalizing r with
  | nil => exact .refl W r
  | cons n l ih => exact (Transcript.adds_error W r (.parserName n) (by intros; simp)).trans (ih _)

theorem transcript_stop (W : Words) (S : Sorter) (env : Env) (f : Flags) (x : Final) (t : Said) (hx : runPrep S env f = .inl x)
    (hr : x.r.results = []) (ha : Transcript.Adds W { outputAsJSON := f.json } x.r t) (hno : shown x.r.events = []) :
    transcript W (run S env f).events = t ++ saidDocument W f [] := by
  have hb : runBody S env f = x := by rw [runBody_prep, hx]
  have hsh : shown (run S env f).events = [] := by
    unfold run
    dsimp only
    rw [hb]
    split
    · simp only [RState.printJSON, shown, List.flatMap_append]
      rw [show List.flatMap resultsOf x.r.events = [] from hno, hr]
      rfl
    · exact hno
  rw [transcript_run, hsh, hb, ha.2]
  rfl

/-- **C97** (unknown parser). -/
theorem C97_unknown_parser (W : Words) (S : Sorter) (env : Env) (f : Flags) (hv : f.printVersion = false) (hl : f.listEcosystems = false)
    (hk : ¬ KnownParser f.parseAs) :
    transcript W (run S env f).events =
      [(.stderr, g!"Don't know how to parse files as \"" ++ f.parseAs ++ g!"\" - supported values are:\n")] ++
      (parserList ++ [g!"csv-file", g!"csv-row"]).map (fun n => (.stderr, g!"  " ++ n ++ g!"\n")) ++ saidDocument W f [] := by
  have hx : runPrep S env f = .inl ⟨127, printParsers (RState.printError { outputAsJSON := f.json } (.badParseAs f.parseAs)), env.config⟩ := by
    unfold runPrep
    dsimp only
    rw [hv, hl, (badParseAs_iff f).2 hk]
    rfl
  have hq : ∀ (l : List Str) (r : RState), (l.foldl (fun r p => r.printError (.parserName p)) r).results = r.results ∧
      shown (l.foldl (fun r p => r.printError (.parserName p)) r).events = shown r.events := by
    intro l
    induction l with
    | nil => exact fun r => ⟨rfl, rfl⟩
    | cons a l ih =>
      intro r
      obtain ⟨h1, h2⟩ := ih (r.printError (.parserName a))
      exact ⟨h1, h2.trans (by simp [RState.printError, shown, resultsOf])⟩
  refine transcript_stop W S env f _ _ hx ?_ ?_ ?_
  · exact (hq _ _).1
  · unfold printParsers
    rw [listParsers_eq]
    exact (Transcript.adds_error W _ (.badParseAs f.parseAs) (by intros; simp)).trans (adds_parsers W _ _)
  · exact (hq _ _).2

theorem found_quiet (env : Env) (f : Flags) :
    (findAllLockfiles env { outputAsJSON := f.json } f.args f.parseAs).1.results = [] ∧
    shown (findAllLockfiles env { outputAsJSON := f.json } f.args f.parseAs).1.events = [] := by
  unfold findAllLockfiles
  split
  · exact ⟨rfl, rfl⟩
  · have : ∀ (args : List Str) (acc : RState × List Str × Bool), acc.1.results = [] ∧ shown acc.1.events = [] →
        (args.foldl (findStep env f.parseAs) acc).1.results = [] ∧ shown (args.foldl (findStep env f.parseAs) acc).1.events = [] := by
      intro args
      induction args with
      | nil => exact fun _ h => h
      | cons a args ih =>
        intro acc h
        refine ih _ ?_
        have hstep : ∀ b : Bool, ∀ m, (if b then acc.1.printError m else acc.1).results = [] ∧
            shown (if b then acc.1.printError m else acc.1).events = [] := by
          intro b m
          cases b with
          | false => exact h
          | true =>
            refine ⟨h.1, ?_⟩
            have := h.2
            simp only [shown] at this
            simp [RState.printError, shown, resultsOf, this]
        exact hstep _ _
    exact this _ _ ⟨rfl, rfl⟩

/-- **C97** (nothing to check). -/
theorem C97_no_paths (W : Words) (S : Sorter) (env : Env) (f : Flags) (hv : f.printVersion = false) (hl : f.listEcosystems = false)
    (hk : KnownParser f.parseAs) (hg : f.parseAs ≠ g!"csv-row") (hd : ¬ ∃ want q, Discovers env f.parseAs f.args want q) :
    transcript W (run S env f).events = saidPaths W env f ++
      [(.stderr, g!"You must provide at least one path to either a lockfile or a directory containing at least one lockfile (see --help for usage and flags)\n")] ++
      saidDocument W f [] := by
  have hb : badParseAs f = false := by
    cases h : badParseAs f with
    | false => rfl
    | true => exact absurd hk ((badParseAs_iff f).1 h)
  have hz := (found_none env { outputAsJSON := f.json } f.args f.parseAs).2 ⟨hg, hd⟩
  obtain ⟨q1, q2⟩ := found_quiet env f
  have a1 := Transcript.adds_find W env f { outputAsJSON := f.json }
  have hx : ∃ e, runPrep S env f = .inl ⟨e, (findAllLockfiles env { outputAsJSON := f.json } f.args f.parseAs).1.printError .noPaths, env.config⟩ := by
    unfold runPrep
    dsimp only
    rw [hv, hl, hb, if_pos hz]
    exact ⟨_, rfl⟩
  obtain ⟨e, hx⟩ := hx
  refine transcript_stop W S env f _ _ hx ?_ ?_ ?_
  · exact q1
  · exact a1.trans (Transcript.adds_error W _ .noPaths (by intros; simp))
  · simp_all [RState.printError, shown, resultsOf]

/-- **C97** (bad config). -/
theorem C97_bad_config (W : Words) (S : Sorter) (env : Env) (f : Flags) (hv : f.printVersion = false) (hl : f.listEcosystems = false)
    (hk : KnownParser f.parseAs) (hd : f.parseAs = g!"csv-row" ∨ ∃ want q, Discovers env f.parseAs f.args want q)
    (hp : f.listPackages = false) (hn : f.noConfig = false) (hc : f.configPath ≠ []) (e : ConfigErr)
    (he : loadConfig env.validURL env.config f.configPath = .error e) :
    transcript W (run S env f).events = saidPaths W env f ++ [(.stderr, g!"Error, " ++ W.cause (.badConfig e) ++ g!"\n")] ++
      saidDocument W f [] := by
  have hb : badParseAs f = false := by
    cases h : badParseAs f with
    | false => rfl
    | true => exact absurd hk ((badParseAs_iff f).1 h)
  have hz : ¬ (findAllLockfiles env { outputAsJSON := f.json } f.args f.parseAs).2.1.length = 0 := by
    intro h
    obtain ⟨h1, h2⟩ := (found_none env { outputAsJSON := f.json } f.args f.parseAs).1 h
    rcases hd with h | h
    · exact h1 h
    · exact h2 h
  obtain ⟨q1, q2⟩ := found_quiet env f
  have a1 := Transcript.adds_find W env f { outputAsJSON := f.json }
  have hst : startConfig env f (findAllLockfiles env { outputAsJSON := f.json } f.args f.parseAs).1 =
      ((findAllLockfiles env { outputAsJSON := f.json } f.args f.parseAs).1.printError (.badConfig e), none) := by
    unfold startConfig
    rw [hp, hn, he]
    simp [hc]
  have hx : runPrep S env f = .inl ⟨127, (findAllLockfiles env { outputAsJSON := f.json } f.args f.parseAs).1.printError (.badConfig e), env.config⟩ := by
    unfold runPrep
    dsimp only
    rw [hv, hl, hb, if_neg hz, hst]
    rfl
  refine transcript_stop W S env f _ _ hx ?_ ?_ ?_
  · exact q1
  · exact a1.trans (Transcript.adds_error W _ (.badConfig e) (by intros; simp))
  · simp_all [RState.printError, shown, resultsOf]

/-- **C97** (information). With `--version` or `--list-ecosystems` nothing else is written. -/
theorem C97_information (W : Words) (S : Sorter) (env : Env) (f : Flags) (h : f.printVersion = true ∨ f.listEcosystems = true) :
    transcript W (run S env f).events = (if f.printVersion
      then [(textStream f, g!"osv-detector " ++ W.version ++ g!" (" ++ W.date ++ g!", commit " ++ W.commit ++ g!")\n")]
      else [(textStream f, g!"The detector supports parsing for the following ecosystems:\n")] ++
        [g!"CRAN", g!"npm", g!"NuGet", g!"crates.io", g!"RubyGems", g!"Packagist", g!"Go", g!"Hex", g!"Maven", g!"PyPI", g!"Pub"].map
          fun e => (textStream f, g!"  " ++ e ++ g!"\n")) ++ saidDocument W f [] := by
  cases hv : f.printVersion with
  | true =>
    have hx : runPrep S env f = .inl ⟨0, RState.printText { outputAsJSON := f.json } .version, env.config⟩ := by
      unfold runPrep
      dsimp only
      rw [hv]
      rfl
    refine transcript_stop W S env f _ _ hx rfl ?_ ?_
    · exact Transcript.adds_text W { outputAsJSON := f.json } .version (by intros; simp)
    · simp [RState.printText, shown, resultsOf]
  | false =>
    have hl : f.listEcosystems = true := by simpa [hv] using h
    have hx : runPrep S env f = .inl ⟨0, printKnownEcosystems { outputAsJSON := f.json }, env.config⟩ := by
      unfold runPrep
      dsimp only
      rw [hv, hl]
      rfl
    refine transcript_stop W S env f _ _ hx rfl ?_ rfl
    have a1 := Transcript.adds_text W { outputAsJSON := f.json } (.ecosystem none) (by intros; simp)
    exact a1.trans (Transcript.adds_texts W f (fun e => .ecosystem (some e)) (by intros; simp) knownEcosystems _ rfl)

/-- **C97** (numbers). A batch size is shown with its sign. -/
theorem C97_number (n : Int) : showInt n = (if n < 0 then g!"-" else []) ++ showNat n.natAbs := by
  cases n with
  | ofNat n => rw [if_neg (by simp)]; rfl
  | negSucc n => rw [if_pos (Int.negSucc_lt_zero n)]; rfl

/-! The hypotheses can be met. -/

example : Started { sampleFlags [g!"d", g!"nope"] with json := true }
    (run Sorter.insertion sampleEnv { sampleFlags [g!"d", g!"nope"] with json := true }).events := by
  have : (run Sorter.insertion sampleEnv { sampleFlags [g!"d", g!"nope"] with json := true }).events.any
    (Event.isErr fun m => m.isStop) = false := by decide +kernel
  refine ⟨rfl, rfl, fun m hm => ?_⟩
  have := List.any_eq_false.1 this _ hm
  cases m <;> simp [Event.isErr, ErrMsg.isStop] at this ⊢

example : streamText plainWords .stderr (run Sorter.insertion sampleEnv { sampleFlags [g!"d", g!"nope"] with json := true }).events =
  g!"Error reading nope: oh no
Loaded the following OSV databases:
  Go (1 vulnerability, including withdrawn)
  npm (1 vulnerability, including withdrawn)

d/go.mod: found 1 package
  Using config at d/.osv-detector.yml (1 ignore)
  Using db Go (1 vulnerability, including withdrawn)


d/yarn.lock: found 1 package
  Using config at d/.osv-detector.yml (1 ignore)
  Using db npm (1 vulnerability, including withdrawn)

" := by decide +kernel

example : ¬ KnownParser g!"my-lockfile" := by unfold KnownParser; decide

example : KnownParser (sampleFlags [g!"nope"]).parseAs ∧ (findAllLockfiles sampleEnv { outputAsJSON := false } [g!"nope"] []).2.1.length = 0 :=
  ⟨.inl rfl, by decide +kernel⟩

example : loadConfig sampleEnv.validURL sampleEnv.config g!"my.yml" = .error (.notExist g!"my.yml") := by rfl

end Osv
