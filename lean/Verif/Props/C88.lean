import Verif.Spec.ParserDiags
import Verif.Props.C44
import Verif.Props.C49
import Verif.Props.C51
import Verif.Props.C52
/-!
# C88 Parsers say what they skip

Four parsers skip lines or leave out versions that they do not understand. Each time they say so.
-/
namespace Osv
open Str Spec

namespace ParserDiags

theorem gradle_content {line body : Str} : GradleContent line body ↔ body = trimSpace line ∧ isNotGradleLine (trimSpace line) = false := by
  unfold GradleContent
  rw [← trimSpace_iff, Gradle.notLine_iff]
  constructor
  · rintro ⟨rfl, h⟩
    exact ⟨rfl, h⟩
  · rintro ⟨rfl, h⟩
    exact ⟨rfl, h⟩

theorem gradle_iff (line : Str) (d : ParseDiag) : gradleDiag line = some d ↔ GradleSkipped line d := by
  unfold GradleSkipped
  simp only [gradle_content, ← Gradle.entry_iff, Gradle.entry, gradleDiag]
  cases hn : isNotGradleLine (trimSpace line) with
  | true => simp
  | false =>
    cases hp : parseGradleLine (trimSpace line) with
    | none => simp [eq_comm]
    | some p => simp

theorem mix_iff (line : Str) (hn : '\n' ∉ line) (d : ParseDiag) : mixDiag line = some d ↔ MixSkipped line d := by
  unfold MixSkipped
  have hh : (∃ name, MixHead line name) ↔ (reMixLine.find line).isSome = true := by
    constructor
    · rintro ⟨name, h⟩
      obtain ⟨m, hm, -⟩ := (Mix.find_iff line hn name).2 h
      rw [hm]
      rfl
    · intro h
      obtain ⟨m, hm⟩ := Option.isSome_iff_exists.1 h
      exact ⟨_, (Mix.find_iff line hn _).1 ⟨m, hm, rfl⟩⟩
  rw [hh]
  simp only [← Mix.entry_iff line hn]
  unfold mixDiag Mix.entry mixStep
  cases hf : reMixLine.find line with
  | none => simp
  | some m =>
    dsimp only
    simp only [Option.isSome_some, true_and]
    split
    · rename_i hl
      have : ∀ f0 f1 f2 f3 more, fieldsFunc (· == ',') line ≠ f0 :: f1 :: f2 :: f3 :: more := by
        intro f0 f1 f2 f3 more e
        rw [e] at hl
        simp only [List.length_cons] at hl
        omega
      split
      · rename_i e
        exact absurd e (this _ _ _ _ _)
      · simp [eq_comm]
    · rename_i hl
      split
      · split <;> simp
      · rename_i e
        exfalso
        match hfs : fieldsFunc (· == ',') line, hl with
        | [], hl => simp at hl
        | [_], hl => simp at hl
        | [_, _], hl => simp at hl
        | [_, _, _], hl => simp at hl
        | f0 :: f1 :: f2 :: f3 :: more, _ => exact e _ _ _ _ _ hfs

theorem maven_iff (props : SMap Str) (d : MavenLockDependency) (hn : '\n' ∉ d.version) (m : ParseDiag) :
    mavenDiag props d = some m ↔ MavenUnresolved props d m := by
  unfold MavenUnresolved
  simp only [← Maven.reference_iff d.version hn]
  unfold mavenDiag
  cases hf : Re.find mavenInterpolationRe d.version with
  | none => simp
  | some f =>
    dsimp only
    cases hp : props.get? (f.group 1) with
    | some v => simp [hp]
    | none =>
      simp only [Option.some.injEq, exists_eq_left', hp, true_and]
      exact eq_comm

end ParserDiags

/-- gradle.lockfile: one message for each line that is not an entry, a comment or the list of empty configurations, in order. Blank lines
are among them. -/
theorem C88_gradle (content : Str) : Entries GradleSkipped (Scanner.scan content).1 (gradleDiags (some content)) :=
  entries_mono ParserDiags.gradle_iff (entries_filterMap _ _)

/-- mix.lock: one message for each line that begins like an entry and is none. -/
theorem C88_mix (content : Str) : Entries MixSkipped (Scanner.scan content).1 (mixDiags (some content)) := by
  have hn := Scanner.scan_no_newline content
  unfold mixDiags
  dsimp only
  generalize (Scanner.scan content).1 = ls at hn
  induction ls with
  | nil => exact .nil
  | cons l ls ih =>
    have ih := ih fun x hx => hn x (by simp [hx])
    have hl := ParserDiags.mix_iff l (hn l (by simp))
    cases he : mixDiag l with
    | none =>
      rw [List.filterMap_cons_none he]
      exact .skip (fun d hd => by rw [← hl, he] at hd; cases hd) ih
    | some d =>
      rw [List.filterMap_cons_some he]
      exact .keep ((hl d).1 he) ih

/-- yarn.lock: one message for each package that is reported without a version, with its name. -/
theorem C88_yarn (content : Option Str) :
    yarnDiags content = ((parseYarnLock content).1.filter fun p => p.version = []).map fun p => .yarnVersion p.name := by
  unfold yarnDiags parseYarnLock
  cases content with
  | none => rfl
  | some c =>
    dsimp only
    split
    · rfl
    · dsimp only
      rw [foldl_append_filterMap (fun g => if skipYarnGroup g then none else some (parsePackageGroup g)) yarnStep
        (fun acc g => by unfold yarnStep; by_cases hs : skipYarnGroup g = true <;> simp [hs]), List.nil_append]
      induction groupPackageLines (Scanner.scan c).1 with
      | nil => rfl
      | cons g gs ih =>
        rw [List.filterMap_cons, List.filterMap_cons, ih]
        unfold yarnDiag
        cases hs : skipYarnGroup g with
        | true => rfl
        | false =>
          by_cases hv : (parsePackageGroup g).version = []
          · simp [hv]
          · simp [hv]

/-- pom.xml: one message for each dependency, managed or not, whose version refers to a property that is not there. -/
theorem C88_maven (decode : Str → Option MavenLockFile) (content : Str) (f : MavenLockFile) (hd : decode content = some f)
    (hn : ∀ d ∈ f.managedDependencies ++ f.dependencies, '\n' ∉ d.version) :
    Entries (MavenUnresolved f.properties) (f.managedDependencies ++ f.dependencies) (mavenDiags decode (some content)) := by
  unfold mavenDiags
  rw [Option.bind_some, hd]
  dsimp only
  rw [← List.filterMap_append]
  generalize f.managedDependencies ++ f.dependencies = ds at hn
  induction ds with
  | nil => exact .nil
  | cons d ds ih =>
    have ih := ih fun x hx => hn x (by simp [hx])
    have hl := ParserDiags.maven_iff f.properties d (hn d (by simp))
    cases he : mavenDiag f.properties d with
    | none =>
      rw [List.filterMap_cons_none he]
      exact .skip (fun m hm => by rw [← hl, he] at hm; cases hm) ih
    | some m =>
      rw [List.filterMap_cons_some he]
      exact .keep ((hl m).1 he) ih

namespace ParserDiags

theorem none_of_entries {α β : Type} {R : α → β → Prop} {as : List α} (h : Entries R as []) : ∀ a ∈ as, ∀ b, ¬ R a b := by
  generalize hb : ([] : List β) = bs at h
  induction h with
  | nil => simp
  | keep _ _ _ => cases hb
  | skip h1 _ ih =>
    intro a ha
    rcases List.mem_cons.1 ha with rfl | ha
    · exact h1
    · exact ih hb a ha

theorem kept_of_entries {α β : Type} {R : α → β → Prop} (hu : ∀ a b c, R a b → R a c → b = c) {as : List α} {bs : List β}
    (h : Entries R as bs) {a : α} (ha : a ∈ as) {b : β} (hb : R a b) : b ∈ bs := by
  induction h with
  | nil => cases ha
  | keep h1 _ ih =>
    rcases List.mem_cons.1 ha with rfl | ha
    · rw [hu _ _ _ hb h1]
      simp
    · exact List.mem_cons_of_mem _ (ih ha)
  | skip h1 _ ih =>
    rcases List.mem_cons.1 ha with rfl | ha
    · exact absurd hb (h1 b)
    · exact ih ha

end ParserDiags

/-- A gradle.lockfile that is read without error and without message: every line is a comment, the list of empty configurations, or an
entry that is reported. -/
theorem C88_gradle_quiet (content : Str) (h : (parseGradleLock (some content)).2 = false) (hq : gradleDiags (some content) = [])
    (line : Str) (hl : line ∈ (Scanner.scan content).1) :
    (∀ body, Trimmed line body → (∃ t, body = '#' :: t) ∨ ∃ t, body = g!"empty=" ++ t) ∨
    ∃ p ∈ (parseGradleLock (some content)).1, GradleEntry line p := by
  have hs : (Scanner.scan content).2 = false := by
    unfold parseGradleLock at h
    dsimp only at h
    split at h
    · cases h
    · rename_i h'
      simpa using h'
  by_cases he : ∃ p, GradleEntry line p
  · obtain ⟨p, hp⟩ := he
    exact .inr ⟨p, ParserDiags.kept_of_entries C52_unique (C52_entries content hs).2 hl hp, hp⟩
  · left
    intro body hb
    have hg := C88_gradle content
    rw [hq] at hg
    have := ParserDiags.none_of_entries hg line hl
    by_cases h1 : ∃ t, body = '#' :: t
    · exact .inl h1
    · by_cases h2 : ∃ t, body = g!"empty=" ++ t
      · exact .inr h2
      · exact absurd ⟨body, ⟨hb, fun t e => h1 ⟨t, e⟩, fun t e => h2 ⟨t, e⟩⟩, fun p hp => he ⟨p, hp⟩, rfl⟩ (this (.gradleLine body))

/-- A mix.lock that is read without error and without message: every line that begins like an entry is reported. -/
theorem C88_mix_quiet (content : Str) (h : (parseMixLock (some content)).2 = false) (hq : mixDiags (some content) = [])
    (line name : Str) (hl : line ∈ (Scanner.scan content).1) (hm : MixHead line name) :
    ∃ p ∈ (parseMixLock (some content)).1, MixEntry line p := by
  have hs : (Scanner.scan content).2 = false := by
    unfold parseMixLock at h
    dsimp only at h
    split at h
    · cases h
    · rename_i h'
      simpa using h'
  have hg := C88_mix content
  rw [hq] at hg
  have hnone := ParserDiags.none_of_entries hg line hl
  by_cases he : ∃ p, MixEntry line p
  · obtain ⟨p, hp⟩ := he
    have hE := (C51_entries content hs).2
    refine ⟨p, ?_, hp⟩
    have hn := Scanner.scan_no_newline content
    generalize (parseMixLock (some content)).1 = ps at hE
    generalize (Scanner.scan content).1 = ls at hE hl hn
    clear hg hq h hs hnone
    induction hE with
    | nil => cases hl
    | keep h1 _ ih =>
      rcases List.mem_cons.1 hl with rfl | hl
      · rw [C51_unique _ (hn _ (by simp)) _ _ hp h1]
        simp
      · exact List.mem_cons_of_mem _ (ih hl fun x hx => hn x (by simp [hx]))
    | skip h1 _ ih =>
      rcases List.mem_cons.1 hl with rfl | hl
      · exact absurd hp (h1 p)
      · exact ih hl fun x hx => hn x (by simp [hx])
  · exact absurd ⟨⟨name, hm⟩, fun p hp => he ⟨p, hp⟩, rfl⟩ (hnone .mixFields)

/-- A yarn.lock that is read without error and without message: every package is reported with a version. -/
theorem C88_yarn_quiet (content : Option Str) (hq : yarnDiags content = []) (p : PackageDetails)
    (hp : p ∈ (parseYarnLock content).1) : p.version ≠ [] := by
  rw [C88_yarn, List.map_eq_nil_iff, List.filter_eq_nil_iff] at hq
  simpa using hq p hp

/-- A pom.xml that is read without message: no version is made up for a property that is not there. -/
theorem C88_maven_quiet (decode : Str → Option MavenLockFile) (content : Str) (f : MavenLockFile) (hd : decode content = some f)
    (hq : mavenDiags decode (some content) = []) (d : MavenLockDependency) (hm : d ∈ f.managedDependencies ++ f.dependencies) (name : Str)
    (hn : '\n' ∉ name) (h0 : name ≠ []) (hv : d.version = Reference name) :
    ∃ v, f.properties.get? name = some v ∧ mavenResolveVersion f.properties d.version = mavenParseResolvedVersion v := by
  have hd' : mavenDiag f.properties d = none := by
    unfold mavenDiags at hq
    rw [Option.bind_some, hd] at hq
    dsimp only at hq
    rw [← List.filterMap_append, List.filterMap_eq_nil_iff] at hq
    exact hq d hm
  cases hp : f.properties.get? name with
  | some v =>
    refine ⟨v, rfl, ?_⟩
    unfold mavenResolveVersion
    rw [hv, Maven.resolve_ref f.properties name h0 hn, hp]
    rfl
  | none =>
    exfalso
    obtain ⟨g, hg, hgn⟩ := Maven.find_reference [] name [] h0 (by simpa using hn) (by simp) (by decide) true
    rw [List.nil_append, List.append_nil, ← hv, ← Re.find_eq_findFrom] at hg
    unfold mavenDiag at hd'
    rw [hg] at hd'
    dsimp only at hd'
    rw [hgn, hp] at hd'
    cases hd'

/-- The other parsers have no messages, and neither has one for a file that cannot be read. -/
theorem C88_others (P : ParserEnv) (parser path : Str) :
    (parser ∉ [g!"mix.lock", g!"pom.xml", g!"yarn.lock", g!"gradle.lockfile", g!"buildscript-gradle.lockfile"] →
      parserDiags P parser path = []) ∧
    (P.file path = none → parserDiags P parser path = []) := by
  constructor
  · intro h
    simp only [List.mem_cons, List.not_mem_nil, or_false, not_or] at h
    simp [parserDiags, h]
  · intro h
    unfold parserDiags
    rw [h]
    repeat' split
    all_goals rfl

/-- Which messages belong to which name. -/
theorem C88_table (P : ParserEnv) (path : Str) :
    parserDiags P g!"mix.lock" path = mixDiags (P.file path) ∧ parserDiags P g!"pom.xml" path = mavenDiags pomDecode (P.file path) ∧
    parserDiags P g!"yarn.lock" path = yarnDiags (P.file path) ∧ parserDiags P g!"gradle.lockfile" path = gradleDiags (P.file path) ∧
    parserDiags P g!"buildscript-gradle.lockfile" path = gradleDiags (P.file path) := by
  refine ⟨?_, ?_, ?_, ?_, ?_⟩ <;> simp [parserDiags]

/-- The text of a message names what it is about, is one line, and tells different messages of one kind apart. -/
theorem C88_text (line name property : Str) :
    (ParseDiag.gradleLine line).text = g!"skipping invalid line in gradle lockfile: " ++ line ++ g!"\n" ∧
    name <:+: (ParseDiag.yarnVersion name).text ∧ name <:+: (ParseDiag.mavenProperty name property).text ∧
    property <:+: (ParseDiag.mavenProperty name property).text ∧
    (∀ d : ParseDiag, g!"\n" <:+ d.text) ∧
    (∀ l, (ParseDiag.gradleLine line).text = (ParseDiag.gradleLine l).text → line = l) ∧
    (∀ n, (ParseDiag.yarnVersion name).text = (ParseDiag.yarnVersion n).text → name = n) := by
  refine ⟨rfl, ⟨g!"Failed to determine version of ", _, by simp only [ParseDiag.text]; rw [List.append_assoc, ← List.append_assoc]⟩,
    ⟨g!"Failed to resolve version of ", g!": property \"" ++ property ++ g!"\" could not be found\n", by simp only [ParseDiag.text, List.append_assoc]⟩,
    ⟨g!"Failed to resolve version of " ++ name ++ g!": property \"", g!"\" could not be found\n", by simp only [ParseDiag.text, List.append_assoc]⟩,
    ?_, ?_, ?_⟩
  · intro d
    cases d with
    | gradleLine l => exact ⟨_, rfl⟩
    | mixFields => exact ⟨g!"Found less than four fields when parsing a line that looks like a dependency in a mix.lock - please report this!", rfl⟩
    | yarnVersion n =>
      exact ⟨g!"Failed to determine version of " ++ n ++ g!" while parsing a yarn.lock - please report this!", by
        simp only [ParseDiag.text, List.append_assoc]; rfl⟩
    | mavenProperty n p =>
      exact ⟨g!"Failed to resolve version of " ++ n ++ g!": property \"" ++ p ++ g!"\" could not be found", by
        simp only [ParseDiag.text, List.append_assoc]; rfl⟩
  · intro l h
    simpa [ParseDiag.text] using h
  · intro n h
    simpa [ParseDiag.text] using h

/-! ### Non-vacuity -/

example : gradleDiags (some g!"# c\na:b:1=x\nnonsense\nempty=\n") = [.gradleLine g!"nonsense"] := by decide +kernel
example : mixDiags (some g!"%{\n  \"a\": {:hex, :a},\n}\n") = [.mixFields] := by decide +kernel
example : yarnDiags (some g!"a@1:\n  resolved \"x\"\n\nb@1:\n  version \"1.0\"\n") = [.yarnVersion g!"a"] := by decide +kernel
example : mavenDiags (fun _ => some ⟨[], [⟨g!"g", g!"a", g!"${v}"⟩], []⟩) (some []) = [.mavenProperty g!"g:a" g!"v"] := by decide +kernel
example : (ParseDiag.mavenProperty g!"g:a" g!"v").text = g!"Failed to resolve version of g:a: property \"v\" could not be found\n" := by
  decide +kernel
example : (ParseDiag.yarnVersion g!"a").text = g!"Failed to determine version of a while parsing a yarn.lock - please report this!\n" := by
  decide +kernel

end Osv
