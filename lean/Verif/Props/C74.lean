import Verif.Lemmas.Xml
import Verif.Lemmas.PomXml
import Verif.Props.C49
/-! # C74 pom.xml as text -/
namespace Osv
open Str Spec Spec.Markup

/-- A document is read as a pom exactly if its first element is `project`, and then properties and dependencies are those that are
written: dependencies are the elements at their two paths and no others, in order; of several elements with the same name the last one
counts. -/
theorem C74_read {l : Str} {kids : List XNode} {text : Str} (h : Document l kids text) :
    (l = g!"project" → ∃ f, pomDecode text = some f ∧ PomSays kids f) ∧ (l ≠ g!"project" → pomDecode text = none) := by
  unfold pomDecode
  rw [Xml.read_document h]
  constructor
  · rintro rfl
    obtain ⟨h1, h2, h3⟩ := Pom.project kids ⟨[], [], []⟩
    refine ⟨_, rfl, ?_, by simpa using h2, by simpa using h3⟩
    intro n
    rw [h1]
    unfold writtenProperty
    cases (named g!"properties" kids).getLast? <;> rfl
  · intro hl
    show (if l = g!"project" then _ else none) = none
    rw [if_neg hl]

/-- The contents of a document are determined by its text. -/
theorem C74_unambiguous {l l' : Str} {kids kids' : List XNode} {text : Str} (h : Document l kids text) (h' : Document l' kids' text) :
    l = l' ∧ kids = kids' := by
  have := Xml.read_document h
  rw [Xml.read_document h'] at this
  injection this with this
  injection this with h1 h2
  exact ⟨h1.symm, h2.symm⟩

/-- Packages are named exactly as the dependencies at the two paths: every such element is reported, and nothing else. -/
theorem C74_names {order : List PackageDetails → List PackageDetails} (ho : ∀ l, (order l).Perm l) {kids : List XNode} {text : Str}
    (h : Document g!"project" kids text) :
    ∃ pkgs, parseMavenLock pomDecode order (some text) = (pkgs, false) ∧ (pkgs.map (·.name)).Nodup ∧ ∀ n,
      n ∈ pkgs.map (·.name) ↔ ∃ k, (k ∈ elementsAt [g!"dependencies", g!"dependency"] kids ∨
        k ∈ elementsAt [g!"dependencyManagement", g!"dependencies", g!"dependency"] kids) ∧ n = mavenName (writtenDependency k) := by
  obtain ⟨f, hf, hs⟩ := (C74_read h).1 rfl
  obtain ⟨pkgs, h1, h2, h3⟩ := C49_names (order := order) ho text f hf
  have hlast : ∀ (l : List MavenLockDependency) d, d ∈ l → ∃ e, LastNamed l e ∧ mavenName e = mavenName d := by
    intro l
    induction l with
    | nil => intro d hd; cases hd
    | cons x l ih =>
      intro d hd
      by_cases hex : ∃ e ∈ l, mavenName e = mavenName d
      · obtain ⟨e, he, hn⟩ := hex
        obtain ⟨e', h1, h2⟩ := ih e he
        exact ⟨e', Maven.lastNamed_cons.2 (.inl h1), h2.trans hn⟩
      · rcases List.mem_cons.1 hd with rfl | hd
        · exact ⟨d, Maven.lastNamed_cons.2 (.inr ⟨rfl, fun e he hn => hex ⟨e, he, hn⟩⟩), rfl⟩
        · exact absurd ⟨d, hd, rfl⟩ hex
  have hmem : ∀ {l : List MavenLockDependency} {d}, LastNamed l d → d ∈ l := by
    rintro l d ⟨a, b, rfl, -⟩; simp
  refine ⟨pkgs, h1, h2, fun n => ?_⟩
  rw [List.mem_map]
  constructor
  · rintro ⟨p, hp, rfl⟩
    obtain ⟨d, hd, rfl⟩ := (h3 p).1 hp
    rcases hd with hd | ⟨hd, -⟩
    · have := hmem hd
      rw [hs.dependencies] at this
      obtain ⟨k, hk, rfl⟩ := List.mem_map.1 this
      exact ⟨k, .inl hk, rfl⟩
    · have := hmem hd
      rw [hs.managed] at this
      obtain ⟨k, hk, rfl⟩ := List.mem_map.1 this
      exact ⟨k, .inr hk, rfl⟩
  · rintro ⟨k, hk, rfl⟩
    have hdirect : ∀ d ∈ f.dependencies, ∃ p ∈ pkgs, p.name = mavenName d := by
      intro d hd
      obtain ⟨e, he, hn⟩ := hlast _ _ hd
      exact ⟨_, (h3 _).2 ⟨e, .inl he, rfl⟩, hn⟩
    rcases hk with hk | hk
    · exact hdirect _ (by rw [hs.dependencies]; exact List.mem_map.2 ⟨k, hk, rfl⟩)
    · by_cases hex : ∃ e ∈ f.dependencies, mavenName e = mavenName (writtenDependency k)
      · obtain ⟨e, he, hn⟩ := hex
        obtain ⟨p, hp, hpn⟩ := hdirect e he
        exact ⟨p, hp, hpn.trans hn⟩
      · obtain ⟨e, he, hn⟩ := hlast f.managedDependencies (writtenDependency k) (by rw [hs.managed]; exact List.mem_map.2 ⟨k, hk, rfl⟩)
        exact ⟨_, (h3 _).2 ⟨e, .inr ⟨he, fun x hx hxn => hex ⟨x, hx, hxn.trans hn⟩⟩, rfl⟩, hn⟩

/-- Comments, text and elements with other names have no influence. -/
theorem C74_elsewhere {l : Str} {a b : List XNode} {x : XNode} {t t' : Str}
    (hx : ∀ n k, x = .elem n k → n ≠ g!"properties" ∧ n ≠ g!"dependencies" ∧ n ≠ g!"dependencyManagement")
    (h : Document l (a ++ x :: b) t) (h' : Document l (a ++ b) t') : pomDecode t = pomDecode t' := by
  have key := Pom.skip a b hx
  unfold pomDecode
  rw [Xml.read_document h, Xml.read_document h']
  show (if l = g!"project" then some (xmlProject _ (a ++ x :: b)) else none) = if l = g!"project" then some (xmlProject _ (a ++ b)) else none
  rw [key]

/-- From text to packages, with the rule of C49 for versions. -/
theorem C74_reported {order : List PackageDetails → List PackageDetails} (ho : ∀ l, (order l).Perm l) {kids : List XNode} {text : Str}
    (h : Document g!"project" kids text) (hp : ∀ n v, writtenProperty kids n = some v → '\n' ∉ v)
    (hl : ∀ k, k ∈ elementsAt [g!"dependencies", g!"dependency"] kids ∨
        k ∈ elementsAt [g!"dependencyManagement", g!"dependencies", g!"dependency"] kids → '\n' ∉ (writtenDependency k).version) :
    ∃ f pkgs, PomSays kids f ∧ parseMavenLock pomDecode order (some text) = (pkgs, false) ∧ (pkgs.map (·.name)).Nodup ∧
      ∀ p, p ∈ pkgs ↔ ∃ d v, MavenEffective f d ∧ MavenReported f.properties d.version v ∧ p = pkg g!"Maven" (mavenName d) v [] := by
  obtain ⟨f, hf, hs⟩ := (C74_read h).1 rfl
  obtain ⟨pkgs, h1, h2, h3⟩ := C49_reported (order := order) ho text f hf (fun n v hv => hp n v (by rw [← hs.properties]; exact hv)) (by
    intro d hd
    rcases hd with ⟨a, b, he, -⟩ | ⟨⟨a, b, he, -⟩, -⟩
    · have : d ∈ f.dependencies := by rw [he]; simp
      rw [hs.dependencies] at this
      obtain ⟨k, hk, rfl⟩ := List.mem_map.1 this
      exact hl k (.inl hk)
    · have : d ∈ f.managedDependencies := by rw [he]; simp
      rw [hs.managed] at this
      obtain ⟨k, hk, rfl⟩ := List.mem_map.1 this
      exact hl k (.inr hk))
  exact ⟨f, pkgs, hs, h1, h2, h3⟩

/-- From text to packages, under the conditions of `C49_partial`. -/
theorem C74_packages {order : List PackageDetails → List PackageDetails} (ho : ∀ l, (order l).Perm l) {kids : List XNode} {text : Str}
    (h : Document g!"project" kids text) (hp : ∀ n v, writtenProperty kids n = some v → '\n' ∉ v)
    (hl : ∀ k, k ∈ elementsAt [g!"dependencies", g!"dependency"] kids ∨
        k ∈ elementsAt [g!"dependencyManagement", g!"dependencies", g!"dependency"] kids → '\n' ∉ (writtenDependency k).version ∧
      ((∀ a b, (writtenDependency k).version ≠ a ++ g!"${" ++ b) ∨
        ∃ name, name ≠ [] ∧ '}' ∉ name ∧ (writtenDependency k).version = g!"${" ++ name ++ g!"}")) :
    ∃ f pkgs, PomSays kids f ∧ parseMavenLock pomDecode order (some text) = (pkgs, false) ∧ (pkgs.map (·.name)).Nodup ∧
      ∀ p, p ∈ pkgs ↔ ∃ d v, MavenEffective f d ∧ MavenVersion f.properties d.version v ∧ p = pkg g!"Maven" (mavenName d) v [] := by
  obtain ⟨f, hf, hs⟩ := (C74_read h).1 rfl
  obtain ⟨pkgs, h1, h2, h3⟩ := C49_partial (order := order) ho text f hf (fun n v hv => hp n v (by rw [← hs.properties]; exact hv)) (by
    intro d hd
    rcases hd with ⟨a, b, he, -⟩ | ⟨⟨a, b, he, -⟩, -⟩
    · have : d ∈ f.dependencies := by rw [he]; simp
      rw [hs.dependencies] at this
      obtain ⟨k, hk, rfl⟩ := List.mem_map.1 this
      exact hl k (.inl hk)
    · have : d ∈ f.managedDependencies := by rw [he]; simp
      rw [hs.managed] at this
      obtain ⟨k, hk, rfl⟩ := List.mem_map.1 this
      exact hl k (.inr hk))
  exact ⟨f, pkgs, hs, h1, h2, h3⟩

/-! ### Non-vacuity -/

theorem Xml.written_plain (s : Str) (h : s.all (fun c => Xml.legal c && c != '\r' && c != '<' && c != '&') = true) : Written s s := by
  induction s with
  | nil => exact .nil
  | cons c s ih =>
    simp only [List.all_cons, Bool.and_eq_true, bne_iff_ne] at h
    refine .char ?_ h.1.1.2 h.1.2 (ih (by simpa using h.2))
    have := h.1.1.1
    simp only [Xml.legal, Bool.or_eq_true, beq_iff_eq, Bool.and_eq_true, decide_eq_true_eq] at this
    unfold XmlChar
    rcases this.1 with (((h | h) | h) | ⟨h, h'⟩) | h
    · exact .inl h
    · exact .inr (.inl h)
    · exact absurd h this.2
    · exact .inr (.inr (.inl ⟨h, h'⟩))
    · exact .inr (.inr (.inr h))

/-- An element with plain text. -/
theorem Xml.simple_element {n s : Str} {rest : List XNode} {u : Str} (hn : SimpleName n) (hs : s ≠ []) (hc : contains s g!"]]>" = false)
    (h : s.all (fun c => Xml.legal c && c != '\r' && c != '<' && c != '&') = true) (hr : Content rest u) :
    Content (.elem n [.text s] :: rest) (g!"<" ++ n ++ [] ++ [] ++ g!">" ++ (s ++ []) ++ g!"</" ++ n ++ [] ++ g!">" ++ u) := by
  refine .element (.plain hn) .nil (by simp [Markup.Blank]) (by simp [Markup.Blank]) (.text (Xml.written_plain s h) hs ?_ (.inl rfl) .nil) hr
  intro a b e
  have := (contains_iff s g!"]]>").2 ⟨a, b, e⟩
  rw [hc] at this; cases this

theorem Xml.simple_name (n : Str) (h : (match n with
    | [] => false
    | c :: r => (Xml.isLetter c || c == '_') && r.all fun d => Xml.isLetter d || d == '_' || isDigit d || d == '-' || d == '.') = true) :
    SimpleName n := by
  have hst : ∀ c, (Xml.isLetter c || c == '_') = true → NameStart c := by
    intro c hc
    simp only [Xml.isLetter, Bool.or_eq_true, Bool.and_eq_true, decide_eq_true_eq, beq_iff_eq] at hc
    rcases hc with (h | h) | h
    · exact .inl h
    · exact .inr (.inl h)
    · exact .inr (.inr h)
  cases n with
  | nil => cases h
  | cons c r =>
    simp only [Bool.and_eq_true, List.all_eq_true] at h
    refine ⟨c, r, rfl, hst c h.1, fun d hd => ?_⟩
    have := h.2 d hd
    simp only [Bool.or_eq_true] at this
    rcases this with (((h | h) | h) | h) | h
    · exact .inl (hst d (by simp [h]))
    · exact .inl (hst d (by rw [h]; simp))
    · simp only [isDigit, Bool.and_eq_true, decide_eq_true_eq] at h; exact .inr (.inl h)
    · exact .inr (.inr (.inl (eq_of_beq h)))
    · exact .inr (.inr (.inr (eq_of_beq h)))

/-- The contents of the sample. -/
def samplePomTree : List XNode :=
  [.text g!"\n", .elem g!"properties" [.elem g!"minor" [.text g!"5"]],
   .elem g!"dependencies" [.other, .elem g!"dependency" [.elem g!"groupId" [.text g!"a&b"], .elem g!"artifactId" [.text g!"c"],
     .elem g!"version" [.text g!"1.${minor}"], .elem g!"optional" []]]]

/-- The sample as text. -/
def samplePomText : Str :=
  g!"<?xml version=\"1.0\" encoding=\"UTF-8\"?>\n<project xmlns=\"http://maven.apache.org/POM/4.0.0\">\r\n<properties><minor>5</minor></properties><dependencies><!-- > --><dependency ><groupId>a&amp;b</groupId><artifactId><![CDATA[c]]></artifactId><version>1.${minor}</version><optional/></dependency></dependencies></project>\n"

/-- A document with a declaration, a name space, other line ends, a comment, a reference and CDATA. -/
theorem C74_sample : Document g!"project" samplePomTree samplePomText := by
  have w0 : Markup.Blank [] := by simp [Markup.Blank]
  have dep : Content [.elem g!"groupId" [.text g!"a&b"], .elem g!"artifactId" [.text g!"c"],
     .elem g!"version" [.text g!"1.${minor}"], .elem g!"optional" []] _ :=
    .element (.plain (Xml.simple_name _ (by decide))) .nil w0 w0
      (.text (t := g!"a&amp;b") (.char (by unfold XmlChar; decide) (by decide) (by decide) (.ref .amp (Xml.written_plain g!"b" (by decide))))
        (by decide) (by intro a b e; exact absurd ((contains_iff _ _).2 ⟨a, b, e⟩) (by decide)) (.inl rfl) .nil)
      (.element (.plain (Xml.simple_name _ (by decide))) .nil w0 w0
        (.cdata (by unfold XmlChar; decide) (by intro a b e; exact absurd ((contains_iff _ _).2 ⟨a, b, e⟩) (by decide)) .nil)
        (Xml.simple_element (Xml.simple_name _ (by decide)) (by decide) (by decide +kernel) (by decide)
          (.empty (.plain (Xml.simple_name _ (by decide))) .nil w0 .nil)))
  have deps : Content [.elem g!"dependencies" [.other, .elem g!"dependency" _]] _ :=
    .element (.plain (Xml.simple_name _ (by decide))) .nil w0 w0
      (.comment ⟨g!" > ", by intro a b e; exact absurd ((contains_iff _ _).2 ⟨a, b, e⟩) (by decide +kernel), rfl⟩
        (.element (w := g!" ") (.plain (Xml.simple_name _ (by decide))) .nil (by simp [Markup.Blank]) w0 dep .nil)) .nil
  have all : Content samplePomTree _ :=
    .text (t := g!"\r\n") (.line .nil) (by decide) (by intro a b e; exact absurd ((contains_iff _ _).2 ⟨a, b, e⟩) (by decide)) (.inr ⟨_, rfl⟩)
      (.element (.plain (Xml.simple_name _ (by decide))) .nil w0 w0
        (Xml.simple_element (Xml.simple_name _ (by decide)) (by decide) (by decide +kernel) (by decide) .nil) deps)
  have cast : ∀ {t : Str}, Document g!"project" samplePomTree t → t = samplePomText → Document g!"project" samplePomTree samplePomText := by
    rintro t h rfl; exact h
  refine cast (Document.mk (p := g!"<?xml version=\"1.0\" encoding=\"UTF-8\"?>" ++ (g!"\n" ++ [])) (more := g!"\n")
    (.declaration ⟨g!" ", '"', g!" encoding=\"UTF-8\"", [], [], by simp [Markup.Blank], by decide, .inl rfl,
        .inr ⟨g!" ", g!"\"UTF-8\"", by simp [Markup.Blank], by decide, ⟨'"', 'U', 'T', 'F', .inl rfl, .inr rfl, .inr rfl, .inr rfl, rfl⟩, rfl⟩,
        .inl rfl, w0, rfl⟩ (.blank (by simp [Markup.Blank]) (by decide) (.inl rfl) .nil))
    (.plain (Xml.simple_name _ (by decide)))
    (.cons (w := g!" ") (q := '"') (rest := []) (by simp [Markup.Blank]) (by decide) (.plain (Xml.simple_name g!"xmlns" (by decide))) w0 w0 (.inl rfl)
      (Xml.written_plain g!"http://maven.apache.org/POM/4.0.0" (by decide)) (by decide) .nil) w0 w0 all) ?_
  decide +kernel

/-- A declaration with other quotes, a document type with a declaration in it, and hexadecimal references. -/
example : Prolog (g!"<?xml version='1.0'?>" ++ (g!"<!DOCTYPE" ++ g!" p [<!ELEMENT p '>'>]" ++ g!">" ++ [])) ∧ Ref '\u00e9' g!"&#xE9;" ∧
    Ref '\u00e9' g!"&#xe9;" := by
  have w0 : Markup.Blank [] := by simp [Markup.Blank]
  have plain : ∀ (s t : Str), (∀ c ∈ s, c ≠ '<' ∧ c ≠ '>' ∧ c ≠ '"' ∧ c ≠ '\'') → Inner t → Inner (s ++ t) := by
    intro s t h ht
    induction s with
    | nil => exact ht
    | cons c s ih =>
      obtain ⟨h1, h2, h3, h4⟩ := h c (by simp)
      exact .char h1 h2 h3 h4 (ih fun d hd => h d (by simp [hd]))
  refine ⟨.declaration ⟨g!" ", '\'', [], [], [], by simp [Markup.Blank], by decide, .inr rfl, .inl rfl, .inl rfl, w0, rfl⟩
    (.doctype (plain g!" p [" _ (by decide) (.nested (plain g!"!ELEMENT p " _ (by decide)
      (.quoted (q := '\'') (s := g!">") (.inr rfl) (by decide) .nil)) (by intro u h; cases h) (plain g!"]" [] (by decide) .nil))) .nil),
    Ref.hex (c := '\u00e9') (.more (s := g!"E") (.one (n := 14) (.inr rfl)) (n := 9) (.inl rfl)) (.inl (by unfold XmlChar; decide)),
    Ref.hex (c := '\u00e9') (.more (s := g!"e") (.one (n := 14) (.inl rfl)) (n := 9) (.inl rfl)) (.inl (by unfold XmlChar; decide))⟩

example : parseMavenLock pomDecode id (some samplePomText) = ([pkg g!"Maven" g!"a&b:c" g!"5" []], false) := by decide +kernel

/-- The claim of C49 fails on this text: the version of the dependency is `1.5`. -/
theorem C49_text_counterexample : ¬ ∀ (f : MavenLockFile), pomDecode samplePomText = some f →
    ∃ pkgs, parseMavenLock pomDecode id (some samplePomText) = (pkgs, false) ∧
      ∀ p, p ∈ pkgs ↔ ∃ d v, MavenEffective f d ∧ MavenVersion f.properties d.version v ∧ p = pkg g!"Maven" (mavenName d) v [] := by
  intro h
  obtain ⟨pkgs, h1, h2⟩ := h ⟨[(g!"minor", g!"5")], [⟨g!"a&b", g!"c", g!"1.${minor}"⟩], []⟩ (by decide +kernel)
  have h3 := (h2 (pkg g!"Maven" g!"a&b:c" g!"1.5" [])).2 ⟨⟨g!"a&b", g!"c", g!"1.${minor}"⟩, g!"1.5", .inl ⟨[], [], rfl, by simp⟩, .inl ⟨g!"1.5", ?_,
    .inr ⟨by simp, g!"1.5", [], rfl, by decide, .inl rfl, .inr ⟨by simp, rfl⟩⟩⟩, rfl⟩
  · have : parseMavenLock pomDecode id (some samplePomText) = ([pkg g!"Maven" g!"a&b:c" g!"5" []], false) := by decide +kernel
    rw [this] at h1
    injection h1 with h1
    subst h1
    revert h3
    decide
  · refine .char '1' g!".${minor}" (some g!".5") (by simp [Reference]) (.char '.' g!"${minor}" (some g!"5") (by simp [Reference]) ?_)
    exact .found g!"minor" [] g!"5" (some []) (by simp) (by decide) (by decide) .nil

end Osv
