import Verif.Go.Str
/-!
# The cache of compiled patterns (`internal/cachedregexp/regex.go`)

Any number of goroutines call `MustCompile`, each with its own pattern. `sync.Map` makes `Load` and `LoadOrStore` atomic, and
`regexp.MustCompile` returns a pointer to a new object each time. Any interleaving of these steps is allowed.
-/
namespace Osv
open Str

/-- Where a goroutine is in `MustCompile` (`internal/cachedregexp/regex.go:11-18`). Pointers are numbers. -/
inductive CallState where
  /-- before line 12 -/
  | start
  /-- line 14, nothing was found -/
  | missed
  /-- line 14, with a new object -/
  | compiled (p : Nat)
  /-- returned -/
  | done (p : Nat)
  /-- `regexp.MustCompile` panicked -/
  | panicked
deriving DecidableEq, Repr

/-- The cache, the patterns of the objects allocated so far (the pointer is the index), and the goroutines with their pattern. -/
structure CacheState where
  cache : Str → Option Nat
  objects : List Str
  calls : List (Str × CallState)

/-- A cache as it is when the program starts, and goroutines that call `MustCompile` with the given patterns
(`internal/cachedregexp/regex.go:9`). -/
def CacheState.init (patterns : List Str) : CacheState := ⟨fun _ => none, [], patterns.map fun e => (e, .start)⟩

/-- One step of one goroutine. `valid` tells which patterns compile. -/
inductive CacheStep (valid : Str → Bool) : CacheState → CacheState → Prop
  /-- `internal/cachedregexp/regex.go:12`: found -/
  | hit (s) (i : Nat) (e : Str) (p : Nat) : s.calls[i]? = some (e, .start) → s.cache e = some p →
      CacheStep valid s { s with calls := s.calls.set i (e, .done p) }
  /-- `internal/cachedregexp/regex.go:12-13`: not found -/
  | miss (s) (i : Nat) (e : Str) : s.calls[i]? = some (e, .start) → s.cache e = none →
      CacheStep valid s { s with calls := s.calls.set i (e, .missed) }
  /-- `internal/cachedregexp/regex.go:14`: `regexp.MustCompile` -/
  | compile (s) (i : Nat) (e : Str) : s.calls[i]? = some (e, .missed) → valid e = true →
      CacheStep valid s { s with objects := s.objects ++ [e], calls := s.calls.set i (e, .compiled s.objects.length) }
  /-- `internal/cachedregexp/regex.go:14`: `regexp.MustCompile` of a pattern that does not compile -/
  | panic (s) (i : Nat) (e : Str) : s.calls[i]? = some (e, .missed) → valid e = false →
      CacheStep valid s { s with calls := s.calls.set i (e, .panicked) }
  /-- `internal/cachedregexp/regex.go:14`: `LoadOrStore` finds what another goroutine has stored -/
  | loaded (s) (i : Nat) (e : Str) (p q : Nat) : s.calls[i]? = some (e, .compiled p) → s.cache e = some q →
      CacheStep valid s { s with calls := s.calls.set i (e, .done q) }
  /-- `internal/cachedregexp/regex.go:14`: `LoadOrStore` stores -/
  | stored (s) (i : Nat) (e : Str) (p : Nat) : s.calls[i]? = some (e, .compiled p) → s.cache e = none →
      CacheStep valid s
        { s with cache := fun e' => if e' = e then some p else s.cache e', calls := s.calls.set i (e, .done p) }

/-- States that can be reached. -/
inductive CacheReach (valid : Str → Bool) (patterns : List Str) : CacheState → Prop
  | init : CacheReach valid patterns (.init patterns)
  | step {s t} : CacheReach valid patterns s → CacheStep valid s t → CacheReach valid patterns t

/-- A goroutine that has returned or panicked. -/
def CallState.over : CallState → Bool
  | .done _ => true
  | .panicked => true
  | _ => false

end Osv
