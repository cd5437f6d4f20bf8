import Verif.Model.Osv
/-! # The ecosystem of each lockfile format -/
namespace Osv.Spec

/-- The formats and their ecosystems. -/
def formatEcosystems : List (Str × Str) :=
  [(g!"bun.lock", g!"npm"), (g!"package-lock.json", g!"npm"), (g!"pnpm-lock.yaml", g!"npm"), (g!"yarn.lock", g!"npm"),
   (g!"Cargo.lock", g!"crates.io"), (g!"composer.lock", g!"Packagist"), (g!"Gemfile.lock", g!"RubyGems"), (g!"go.mod", g!"Go"),
   (g!"mix.lock", g!"Hex"), (g!"packages.lock.json", g!"NuGet"), (g!"pubspec.lock", g!"Pub"), (g!"renv.lock", g!"CRAN"),
   (g!"pom.xml", g!"Maven"), (g!"gradle.lockfile", g!"Maven"), (g!"buildscript-gradle.lockfile", g!"Maven"),
   (g!"pdm.lock", g!"PyPI"), (g!"poetry.lock", g!"PyPI"), (g!"pylock.toml", g!"PyPI"), (g!"Pipfile.lock", g!"PyPI"),
   (g!"requirements.txt", g!"PyPI"), (g!"uv.lock", g!"PyPI")]

/-- The package belongs to the ecosystem of the format, also for comparing versions. -/
def OfFormat (format : Str) (pkg : PackageDetails) : Prop :=
  (format, pkg.ecosystem) ∈ formatEcosystems ∧ pkg.compareAs = pkg.ecosystem

end Osv.Spec
