import Verif.Model.InputField

/-!
# Slices that share arrays

Go's slices with their backing arrays, as far as the code's `append` calls need them: the builders that append to a
slice of their receiver (`/repo/layout.go:101-104`, `/repo/widget/textwidget/line.go:135-148`,
`/repo/widget/textwidget/text.go:29-37`, `/repo/widget/blockwidget/block.go:70-77`), and the input field, which
edits its graphemes in place (`/repo/widget/inputwidget/state.go:59-113`, `input.go:156-184`).

An array never moves or changes its length. How much room `append` leaves in a new array is up to Go: here it is
chosen at each allocation. The elements between the length and the capacity of a new array are zero values.
-/

namespace Bento

namespace Slices

/-- A slice: where it starts in which array, its length and its capacity. -/
structure Slice where
  arr : Nat
  off : Nat
  len : Nat
  cap : Nat
  deriving DecidableEq, Repr

/-- The arrays that were allocated so far. -/
abbrev Heap (α : Type) := List (List α)

section

variable {α : Type}

def Heap.array (h : Heap α) (i : Nat) : List α := h[i]?.getD []

/-- The nil slice. -/
def Slice.nil : Slice := ⟨0, 0, 0, 0⟩

/-- The elements of a slice. -/
def read (h : Heap α) (s : Slice) : List α := ((h.array s.arr).drop s.off).take s.len

/-- The slice expression `s[a:b]`; panics outside the capacity. -/
def Slice.sub (s : Slice) (a b : Nat) : Option Slice :=
  if a ≤ b ∧ b ≤ s.cap then some ⟨s.arr, s.off + a, b - a, s.cap - a⟩ else none

/-- `xs` stored from index `i` on. -/
def overwrite (l : List α) (i : Nat) (xs : List α) : List α := l.take i ++ xs ++ l.drop (i + xs.length)

/-- A new array with `spare` elements of room behind `xs`. -/
def alloc (zero : α) (spare : Nat) (h : Heap α) (xs : List α) : Heap α × Slice :=
  (h ++ [xs ++ List.replicate spare zero], ⟨h.length, 0, xs.length, xs.length + spare⟩)

/-- `append(s, xs...)`: in place, if there is room. -/
def append (zero : α) (spare : Nat) (h : Heap α) (s : Slice) (xs : List α) : Heap α × Slice :=
  if s.len + xs.length ≤ s.cap then
    (h.set s.arr (overwrite (h.array s.arr) (s.off + s.len) xs), { s with len := s.len + xs.length })
  else alloc zero spare h (read h s ++ xs)

/-! ### Builders -/

/-- A call of a constructor with the elements as arguments (`NewLayout`, `NewLine`, `NewText`, `New`), or of a
builder that appends elements to the slice of value number `i`. `Line.WithSpansStr` makes room first
(`slices.Grow`), and then appends; for the arrays this is the same. -/
inductive Op (α : Type) where
  | new (xs : List α)
  | extend (i : Nat) (xs : List α) (spare : Nat)

structure World (α : Type) where
  heap : Heap α
  /-- The slices of the values made so far. -/
  values : List Slice

/-- `/repo/layout.go:63-71`, `101-104`, `/repo/widget/textwidget/line.go:101-107`, `135-148`,
`/repo/widget/textwidget/text.go:21-37`, `/repo/widget/blockwidget/block.go:70-77` — a constructor or builder.
The arguments of a variadic call are an array of just their number. -/
def World.step (zero : α) (w : World α) : Op α → Option (World α)
  | .new xs => let r := alloc zero 0 w.heap xs; some ⟨r.1, w.values ++ [r.2]⟩
  | .extend i xs spare =>
    match w.values[i]? with
    | none => none
    | some s => let r := append zero spare w.heap s xs; some ⟨r.1, w.values ++ [r.2]⟩

def run (zero : α) (ops : List (Op α)) : Option (World α) := ops.foldlM (World.step zero) ⟨[], []⟩

/-- What the values hold. -/
def World.contents (w : World α) : List (List α) := w.values.map (read w.heap)

end

/-! ### The input field -/

/-- The state of an input field, with its slice. -/
structure Field where
  heap : Heap Grapheme
  graphemes : Slice
  cursor : Int
  showCursor : Bool
  offset : Int

/-- The text of the field as a value. -/
def Field.state (f : Field) : InputField.State := ⟨f.cursor, f.showCursor, read f.heap f.graphemes, f.offset⟩

/-- How much room is left in an array: depends on the number of the allocation and on what is needed. -/
abbrev Growth := Nat → Nat → Nat

namespace Field

/-- `append` to a slice, in the arrays of the field. -/
def app (grow : Growth) (h : Heap Grapheme) (s : Slice) (xs : List Grapheme) : Heap Grapheme × Slice :=
  append Grapheme.empty (grow h.length (s.len + xs.length)) h s xs

/-- `/repo/widget/inputwidget/state.go:175-180`, `33-36` — `setCursor`. -/
def setCursor (f : Field) (cursor : Int) : Field := { f with cursor := min (max 0 cursor) f.graphemes.len }

/-- `/repo/widget/inputwidget/state.go:63` — `slices.Insert` of one element: in place if there is room. -/
def insert (grow : Growth) (f : Field) (g : Grapheme) : Option Field :=
  if 0 ≤ f.cursor ∧ f.cursor ≤ f.graphemes.len then
    let s := f.graphemes
    let gs := read f.heap s
    let gs' := gs.take f.cursor.toNat ++ g :: gs.drop f.cursor.toNat
    if s.len + 1 ≤ s.cap then
      some { f with heap := f.heap.set s.arr (overwrite (f.heap.array s.arr) s.off gs'),
                    graphemes := { s with len := s.len + 1 } }
    else
      let r := alloc Grapheme.empty (grow f.heap.length (s.len + 1)) f.heap gs'
      some { f with heap := r.1, graphemes := r.2 }
  else none

/-- `/repo/widget/inputwidget/state.go:62-65` — the loop of `Append`. -/
def appendLoop (u : Uniseg) (grow : Growth) : List String → Field → Option Field
  | [], f => some f
  | c :: rest, f => do
    let f ← f.insert grow (Grapheme.new u c)
    appendLoop u grow rest (f.setCursor (f.cursor + 1))

/-- `/repo/widget/inputwidget/state.go:204-217` — `splitAtCursor`: slices of the same array. -/
def splitAtCursor (h : Heap Grapheme) (s : Slice) (cursor : Int) : Option (Slice × Grapheme × Slice) :=
  if s.len = 0 ∨ cursor = 0 then some (.nil, Grapheme.empty, s)
  else if cursor < 1 then none
  else do
    let before ← s.sub 0 (cursor - 1).toNat
    let under ← (read h s)[(cursor - 1).toNat]?
    if (s.len : Int) > cursor then do
      let after ← s.sub cursor.toNat s.len
      some (before, under, after)
    else some (before, under, .nil)

/-- `/repo/widget/inputwidget/state.go:91-102` — the loop of `deleteWhile`, on the number of graphemes left before
the cursor; returns that number, the current grapheme and the cursor. -/
def whileLoop (cond : Grapheme → Bool) (h : Heap Grapheme) (before : Slice) (len : Int) :
    Nat → Grapheme → Int → Option (Nat × Grapheme × Int)
  | 0, current, cursor => some (0, if cond current then Grapheme.empty else current, cursor)
  | n + 1, current, cursor =>
    if cond current then
      match (read h before)[n]? with
      | none => none
      | some g => whileLoop cond h before len n g (min (max 0 (cursor - 1)) len)
    else some (n + 1, current, cursor)

/-- `/repo/widget/inputwidget/state.go:88-106` — `deleteWhile`. -/
def deleteWhile (grow : Growth) (cond : Grapheme → Bool) (f : Field) : Option Field := do
  let (before, under, after) ← splitAtCursor f.heap f.graphemes f.cursor
  let (n, current, cursor) ← whileLoop cond f.heap before f.graphemes.len before.len under f.cursor
  let before ← before.sub 0 n
  let (h, s) := app grow f.heap before [current]
  let (h, s) := app grow h s (read h after)
  some { f with heap := h, graphemes := s, cursor := cursor }

/-- `/repo/widget/inputwidget/state.go:182-188` — `underCursor`. -/
def underCursor (f : Field) : Option Grapheme :=
  if f.graphemes.len = 0 ∨ f.cursor = 0 then some Grapheme.empty
  else if f.cursor < 1 then none
  else (read f.heap f.graphemes)[(f.cursor - 1).toNat]?

/-- `/repo/widget/inputwidget/state.go:73-86` — `DeleteWordUnderCursor`. -/
def deleteWordUnderCursor (grow : Growth) (f : Field) : Option Field := do
  let current ← f.underCursor
  if current.isEmpty then some f
  else do
    let f ← if current.isWhitespace then f.deleteWhile grow Grapheme.isWhitespace else some f
    f.deleteWhile grow fun g => !g.isEmpty && !g.isWhitespace

/-- `/repo/widget/inputwidget/state.go:108-113` — `DeleteUnderCursor`. -/
def deleteUnderCursor (grow : Growth) (f : Field) : Option Field := do
  let (before, _, after) ← splitAtCursor f.heap f.graphemes f.cursor
  let (h, s) := app grow f.heap before (read f.heap after)
  let f : Field := { f with heap := h, graphemes := s }
  some (f.setCursor (f.cursor - 1))

/-- `/repo/widget/inputwidget/state.go:132-173` — `update`. -/
def update (u : Uniseg) (grow : Growth) (key : Key) (f : Field) : Option (Field × Bool) :=
  if key.type = Input.keyLeft then some (f.setCursor (f.cursor - 1), true)
  else if key.type = Input.keyShiftLeft then some (f, true)
  else if key.type = Input.keyRight then some (f.setCursor (f.cursor + 1), true)
  else if key.type = Input.keyShiftRight then some (f, true)
  else if key.type = 127 ∨ key.type = Input.keyDelete then (f.deleteUnderCursor grow).map (·, true)
  else if key.type = 1 then some ({ f.setCursor 0 with offset := 0 }, true)
  else if key.type = 5 then some (f.setCursor f.graphemes.len, true)
  else if key.type = 23 then (f.deleteWordUnderCursor grow).map (·, true)
  else if key.type = Input.keyRunes ∨ key.type = Input.keySpace then
    (appendLoop u grow (u.graphemes (InputField.State.runesString key.runes)) f).map (·, true)
  else some (f, false)

/-- `/repo/widget/inputwidget/input.go:119-129`, `156-184` — what a drawing of the field does to its arrays: the
visible part is cut out, and the grapheme under the cursor is appended to what is before it. Returns the arrays,
and the texts before, at and after the cursor. -/
def split (grow : Growth) (f : Field) (first count : Nat) :
    Option (Heap Grapheme × List Grapheme × List Grapheme) := do
  let visible ← if first ≥ f.graphemes.len then some Slice.nil else f.graphemes.sub first f.graphemes.len
  let visible ← visible.sub 0 (min count visible.len)
  let (before, under, after) ← splitAtCursor f.heap visible (f.cursor - first)
  let (h, before) := app grow f.heap before [under]
  some (h, read h before, read h after)

end Field

end Slices

end Bento
