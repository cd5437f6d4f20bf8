import Verif.Go.Sort
/-!
# `sort.Slice`

`sort/slice.go` `Slice` and `sort/zsortfunc.go` of the Go library (1.24), which are not part of the repository: pattern-defeating
quicksort on a slice that is changed by swaps. A slice is a function from indices here; only the indices below the length matter. The
comparisons look at elements by index and never compare an element with itself. Loops have a count of rounds that is enough for them.
-/
namespace Osv.Pdq

variable {α : Type}

/-- `reflectlite.Swapper`. -/
def swap (f : Nat → α) (i j : Nat) : Nat → α := fun k => if k = i then f j else if k = j then f i else f k

/-- The inner loop of `insertionSort_func`: `for j := i; j > a && less(j, j-1); j-- { swap(j, j-1) }`. -/
def sink (less : α → α → Bool) (a : Nat) : Nat → (Nat → α) → Nat → α
  | 0, f => f
  | j + 1, f => if a < j + 1 ∧ less (f (j + 1)) (f j) then sink less a j (swap f (j + 1) j) else f

/-- `n` rounds of `for i := ...; i++ { ... }` in `insertionSort_func`. -/
def insertLoop (less : α → α → Bool) (a : Nat) : Nat → Nat → (Nat → α) → Nat → α
  | 0, _, f => f
  | n + 1, i, f => insertLoop less a n (i + 1) (sink less a i f)

/-- `insertionSort_func`. -/
def insertion (less : α → α → Bool) (a b : Nat) (f : Nat → α) : Nat → α := insertLoop less a (b - (a + 1)) (a + 1) f

/-- The child that `siftDown_func` compares the root with. -/
def bigChild (less : α → α → Bool) (hi first root : Nat) (f : Nat → α) : Nat :=
  if 2 * root + 2 < hi ∧ less (f (first + (2 * root + 1))) (f (first + (2 * root + 2))) then 2 * root + 2 else 2 * root + 1

/-- `siftDown_func`. -/
def siftDown (less : α → α → Bool) (hi first : Nat) : Nat → Nat → (Nat → α) → Nat → α
  | 0, _, f => f
  | n + 1, root, f =>
    if hi ≤ 2 * root + 1 then f
    else
      let child := bigChild less hi first root f
      if less (f (first + root)) (f (first + child)) then siftDown less hi first n child (swap f (first + root) (first + child)) else f

/-- The first loop of `heapSort_func`, from `n - 1` down. -/
def heapBuild (less : α → α → Bool) (hi first : Nat) : Nat → (Nat → α) → Nat → α
  | 0, f => f
  | n + 1, f => heapBuild less hi first n (siftDown less hi first hi n f)

/-- The second loop of `heapSort_func`, from `n - 1` down. -/
def heapPop (less : α → α → Bool) (first : Nat) : Nat → (Nat → α) → Nat → α
  | 0, f => f
  | n + 1, f => heapPop less first n (siftDown less n first n 0 (swap f first (first + n)))

/-- `heapSort_func`. -/
def heapSort (less : α → α → Bool) (a b : Nat) (f : Nat → α) : Nat → α :=
  heapPop less a (b - a) (heapBuild less (b - a) a ((b - a - 1) / 2 + 1) f)

/-- `for i <= j && q(i) { i++ }`. -/
def up (q : α → Bool) (f : Nat → α) : Nat → Nat → Nat → Nat
  | 0, i, _ => i
  | n + 1, i, j => if i ≤ j ∧ q (f i) then up q f n (i + 1) j else i

/-- `for i <= j && !q(j) { j-- }`. -/
def down (q : α → Bool) (f : Nat → α) : Nat → Nat → Nat → Nat
  | 0, _, j => j
  | n + 1, i, j => if i ≤ j ∧ q (f j) = false then down q f n i (j - 1) else j

/-- The loop of `partition_func` and `partitionEqual_func`: elements with `q` go to the front. -/
def partLoop (q : α → Bool) : Nat → Nat → Nat → (Nat → α) → (Nat → α) × Nat × Nat
  | 0, i, j, f => (f, i, j)
  | n + 1, i, j, f =>
    let i' := up q f (j + 1 - i) i j
    let j' := down q f (j + 1 - i') i' j
    if j' < i' then (f, i', j') else partLoop q n (i' + 1) (j' - 1) (swap f i' j')

/-- `partition_func`: the slice, the new index of the pivot, and whether nothing but the pivot had to be moved. -/
def partition (less : α → α → Bool) (a b pivot : Nat) (f : Nat → α) : (Nat → α) × Nat × Bool :=
  let g := swap f a pivot
  let q := fun x => less x (g a)
  let i := up q g (b - (a + 1)) (a + 1) (b - 1)
  let j := down q g (b - i) i (b - 1)
  if j < i then (swap g j a, j, true)
  else
    let r := partLoop q (b - a) (i + 1) (j - 1) (swap g i j)
    (swap r.1 r.2.2 a, r.2.2, false)

/-- `partitionEqual_func`: the slice, and where the elements begin that are greater than the pivot. -/
def partitionEqual (less : α → α → Bool) (a b pivot : Nat) (f : Nat → α) : (Nat → α) × Nat :=
  let g := swap f a pivot
  let r := partLoop (fun x => !less (g a) x) (b - a) (a + 1) (b - 1) g
  (r.1, r.2.1)

/-- `for i < b && !less(i, i-1) { i++ }`. -/
def ascend (less : α → α → Bool) (f : Nat → α) (b : Nat) : Nat → Nat → Nat
  | 0, i => i
  | n + 1, i => if i < b ∧ less (f i) (f (i - 1)) = false then ascend less f b n (i + 1) else i

/-- `for j := i + 1; j < b; j++ { if !less(j, j-1) { break }; swap(j, j-1) }`, `n` rounds from `j` on. -/
def rise (less : α → α → Bool) : Nat → Nat → (Nat → α) → Nat → α
  | 0, _, f => f
  | n + 1, j, f => if less (f j) (f (j - 1)) then rise less n (j + 1) (swap f j (j - 1)) else f

/-- `partialInsertionSort_func`, `n` steps; the shift to the left goes on to index 0 and not to `a`. -/
def partialLoop (less : α → α → Bool) (a b : Nat) : Nat → Nat → (Nat → α) → (Nat → α) × Bool
  | 0, _, f => (f, false)
  | n + 1, i, f =>
    let i := ascend less f b (b - i) i
    if i = b then (f, true)
    else if b - a < 50 then (f, false)
    else
      let f := swap f i (i - 1)
      let f := if 2 ≤ i - a then sink less 0 (i - 1) f else f
      let f := if 2 ≤ b - i then rise less (b - (i + 1)) (i + 1) f else f
      partialLoop less a b n i f

def partialInsertion (less : α → α → Bool) (a b : Nat) (f : Nat → α) : (Nat → α) × Bool := partialLoop less a b 5 (a + 1) f

/-- `xorshift.Next`. -/
def next (r : UInt64) : UInt64 :=
  let r := r ^^^ (r <<< 13)
  let r := r ^^^ (r >>> 7)
  r ^^^ (r <<< 17)

/-- `other` in `breakPatterns_func`; `nextPowerOfTwo(length)` is `1 << bits.Len(length)`. -/
def scatter (length : Nat) (r : UInt64) : Nat :=
  let other := r.toNat % 2 ^ (Nat.log2 length + 1)
  if length ≤ other then other - length else other

/-- `breakPatterns_func`. -/
def breakPatterns (a b : Nat) (f : Nat → α) : Nat → α :=
  let length := b - a
  if 8 ≤ length then
    let idx := a + length / 4 * 2 - 1
    let r := next (UInt64.ofNat length)
    let f := swap f (idx - 1) (a + scatter length r)
    let r := next r
    let f := swap f (idx - 1 + 1) (a + scatter length r)
    let r := next r
    swap f (idx - 1 + 2) (a + scatter length r)
  else f

/-- `order2_func`. -/
def order2 (less : α → α → Bool) (f : Nat → α) (a b swaps : Nat) : Nat × Nat × Nat :=
  if less (f b) (f a) then (b, a, swaps + 1) else (a, b, swaps)

/-- `median_func`: the index of the median, and the count of swaps. -/
def median (less : α → α → Bool) (f : Nat → α) (a b c swaps : Nat) : Nat × Nat :=
  let r := order2 less f a b swaps
  let s := order2 less f r.2.1 c r.2.2
  let t := order2 less f r.1 s.1 s.2.2
  (t.2.1, t.2.2)

/-- `choosePivot_func`: the pivot, and the count of swaps that gives the hint. -/
def choosePivot (less : α → α → Bool) (a b : Nat) (f : Nat → α) : Nat × Nat :=
  let l := b - a
  let i := a + l / 4 * 1
  let j := a + l / 4 * 2
  let k := a + l / 4 * 3
  if 8 ≤ l then
    if 50 ≤ l then
      let i := median less f (i - 1) i (i + 1) 0
      let j := median less f (j - 1) j (j + 1) i.2
      let k := median less f (k - 1) k (k + 1) j.2
      median less f i.1 j.1 k.1 k.2
    else median less f i j k 0
  else (j, 0)

/-- `reverseRange_func`, `n` rounds. -/
def reverseLoop : Nat → Nat → Nat → (Nat → α) → Nat → α
  | 0, _, _, f => f
  | n + 1, i, j, f => if i < j then reverseLoop n (i + 1) (j - 1) (swap f i j) else f

/-- What is known before the slice is partitioned: the slice, the pivot, and whether it may be sorted. -/
def prepare (less : α → α → Bool) (a b : Nat) (f : Nat → α) : (Nat → α) × Nat × Bool :=
  let c := choosePivot less a b f
  if c.2 = 12 then (reverseLoop (b - a) a (b - 1) f, b - 1 - (c.1 - a), true) else (f, c.1, c.2 = 0)

/-- `pdqsort_func`. -/
def pdq (less : α → α → Bool) : Nat → Nat → Bool → Bool → Nat → Nat → (Nat → α) → Nat → α
  | 0, _, _, _, _, _, f => f
  | n + 1, limit, wasBalanced, wasPartitioned, a, b, f =>
    if b - a ≤ 12 then insertion less a b f
    else if limit = 0 then heapSort less a b f
    else
      let f := if wasBalanced then f else breakPatterns a b f
      let limit := if wasBalanced then limit else limit - 1
      let p := prepare less a b f
      let s := if wasBalanced && wasPartitioned && p.2.2 then partialInsertion less a b p.1 else (p.1, false)
      if s.2 then s.1
      else if 0 < a ∧ less (s.1 (a - 1)) (s.1 p.2.1) = false then
        let e := partitionEqual less a b p.2.1 s.1
        pdq less n limit wasBalanced wasPartitioned e.2 b e.1
      else
        let m := partition less a b p.2.1 s.1
        if m.2.1 - a < b - m.2.1 then
          pdq less n limit ((b - a) / 8 ≤ m.2.1 - a) m.2.2 (m.2.1 + 1) b (pdq less n limit true true a m.2.1 m.1)
        else pdq less n limit ((b - a) / 8 ≤ b - m.2.1) m.2.2 a m.2.1 (pdq less n limit true true (m.2.1 + 1) b m.1)

/-- `sort.Slice`. -/
def slice (less : α → α → Bool) : List α → List α
  | [] => []
  | x :: xs =>
    let n := xs.length + 1
    (List.range n).map (pdq less n (Nat.log2 n + 1) true true 0 n fun i => (x :: xs).getD i x)

end Osv.Pdq

namespace Osv.Pdq

example : slice (fun a b : Nat => a < b) [5, 3, 9, 1, 1, 20, 4, 7, 8, 2, 6, 0, 13, 12, 11, 10] =
    [0, 1, 1, 2, 3, 4, 5, 6, 7, 8, 9, 10, 11, 12, 13, 20] := by decide +kernel

end Osv.Pdq
