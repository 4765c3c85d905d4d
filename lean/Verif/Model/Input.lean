import Verif.Model.Mouse

/-!
# Reading keys (`/repo/input.go`)
-/

namespace Bento

/-- `/repo/input.go:108` — `KeyType`. Control characters are their code. -/
abbrev KeyType := Int

/-- `/repo/input.go:56-61` — `Key`. -/
structure Key where
  type : KeyType
  runes : List Rune
  alt : Bool
  paste : Bool
  deriving DecidableEq, Repr

namespace Input

/-- A key without runes. -/
def special (t : KeyType) (alt : Bool) : Key := ⟨t, [], alt, false⟩

/-! `/repo/input.go:207-259` — the key types that are not control characters. -/

def keyRunes : KeyType := -1
def keyUp : KeyType := -2
def keyDown : KeyType := -3
def keyRight : KeyType := -4
def keyLeft : KeyType := -5
def keyShiftTab : KeyType := -6
def keyHome : KeyType := -7
def keyEnd : KeyType := -8
def keyPgUp : KeyType := -9
def keyPgDown : KeyType := -10
def keyCtrlPgUp : KeyType := -11
def keyCtrlPgDown : KeyType := -12
def keyDelete : KeyType := -13
def keyInsert : KeyType := -14
def keySpace : KeyType := -15
def keyCtrlUp : KeyType := -16
def keyCtrlDown : KeyType := -17
def keyCtrlRight : KeyType := -18
def keyCtrlLeft : KeyType := -19
def keyCtrlHome : KeyType := -20
def keyCtrlEnd : KeyType := -21
def keyShiftUp : KeyType := -22
def keyShiftDown : KeyType := -23
def keyShiftRight : KeyType := -24
def keyShiftLeft : KeyType := -25
def keyShiftHome : KeyType := -26
def keyShiftEnd : KeyType := -27
def keyCtrlShiftUp : KeyType := -28
def keyCtrlShiftDown : KeyType := -29
def keyCtrlShiftLeft : KeyType := -30
def keyCtrlShiftRight : KeyType := -31
def keyCtrlShiftHome : KeyType := -32
def keyCtrlShiftEnd : KeyType := -33
def keyF1 : KeyType := -34
def keyF2 : KeyType := -35
def keyF3 : KeyType := -36
def keyF4 : KeyType := -37
def keyF5 : KeyType := -38
def keyF6 : KeyType := -39
def keyF7 : KeyType := -40
def keyF8 : KeyType := -41
def keyF9 : KeyType := -42
def keyF10 : KeyType := -43
def keyF11 : KeyType := -44
def keyF12 : KeyType := -45
def keyF13 : KeyType := -46
def keyF14 : KeyType := -47
def keyF15 : KeyType := -48
def keyF16 : KeyType := -49
def keyF17 : KeyType := -50
def keyF18 : KeyType := -51
def keyF19 : KeyType := -52
def keyF20 : KeyType := -53

/-- `/repo/input.go:263-353` — `keyNames`. -/
def keyNames : List (KeyType × String) := [
  (0, "ctrl+@"),
  (1, "ctrl+a"),
  (2, "ctrl+b"),
  (3, "ctrl+c"),
  (4, "ctrl+d"),
  (5, "ctrl+e"),
  (6, "ctrl+f"),
  (7, "ctrl+g"),
  (8, "ctrl+h"),
  (9, "tab"),
  (10, "ctrl+j"),
  (11, "ctrl+k"),
  (12, "ctrl+l"),
  (13, "enter"),
  (14, "ctrl+n"),
  (15, "ctrl+o"),
  (16, "ctrl+p"),
  (17, "ctrl+q"),
  (18, "ctrl+r"),
  (19, "ctrl+s"),
  (20, "ctrl+t"),
  (21, "ctrl+u"),
  (22, "ctrl+v"),
  (23, "ctrl+w"),
  (24, "ctrl+x"),
  (25, "ctrl+y"),
  (26, "ctrl+z"),
  (27, "esc"),
  (28, "ctrl+\\"),
  (29, "ctrl+]"),
  (30, "ctrl+^"),
  (31, "ctrl+_"),
  (127, "backspace"),
  (keyRunes, "runes"),
  (keyUp, "up"),
  (keyDown, "down"),
  (keyRight, "right"),
  (keySpace, " "),
  (keyLeft, "left"),
  (keyShiftTab, "shift+tab"),
  (keyHome, "home"),
  (keyEnd, "end"),
  (keyCtrlHome, "ctrl+home"),
  (keyCtrlEnd, "ctrl+end"),
  (keyShiftHome, "shift+home"),
  (keyShiftEnd, "shift+end"),
  (keyCtrlShiftHome, "ctrl+shift+home"),
  (keyCtrlShiftEnd, "ctrl+shift+end"),
  (keyPgUp, "pgup"),
  (keyPgDown, "pgdown"),
  (keyCtrlPgUp, "ctrl+pgup"),
  (keyCtrlPgDown, "ctrl+pgdown"),
  (keyDelete, "delete"),
  (keyInsert, "insert"),
  (keyCtrlUp, "ctrl+up"),
  (keyCtrlDown, "ctrl+down"),
  (keyCtrlRight, "ctrl+right"),
  (keyCtrlLeft, "ctrl+left"),
  (keyShiftUp, "shift+up"),
  (keyShiftDown, "shift+down"),
  (keyShiftRight, "shift+right"),
  (keyShiftLeft, "shift+left"),
  (keyCtrlShiftUp, "ctrl+shift+up"),
  (keyCtrlShiftDown, "ctrl+shift+down"),
  (keyCtrlShiftLeft, "ctrl+shift+left"),
  (keyCtrlShiftRight, "ctrl+shift+right"),
  (keyF1, "f1"),
  (keyF2, "f2"),
  (keyF3, "f3"),
  (keyF4, "f4"),
  (keyF5, "f5"),
  (keyF6, "f6"),
  (keyF7, "f7"),
  (keyF8, "f8"),
  (keyF9, "f9"),
  (keyF10, "f10"),
  (keyF11, "f11"),
  (keyF12, "f12"),
  (keyF13, "f13"),
  (keyF14, "f14"),
  (keyF15, "f15"),
  (keyF16, "f16"),
  (keyF17, "f17"),
  (keyF18, "f18"),
  (keyF19, "f19"),
  (keyF20, "f20")]

/-- `/repo/input.go:356-534` — `sequences`. -/
def sequences : List (List Byte × Key) := [
  ([27, 91, 65], special keyUp false),
  ([27, 91, 66], special keyDown false),
  ([27, 91, 67], special keyRight false),
  ([27, 91, 68], special keyLeft false),
  ([27, 91, 49, 59, 50, 65], special keyShiftUp false),
  ([27, 91, 49, 59, 50, 66], special keyShiftDown false),
  ([27, 91, 49, 59, 50, 67], special keyShiftRight false),
  ([27, 91, 49, 59, 50, 68], special keyShiftLeft false),
  ([27, 91, 79, 65], special keyShiftUp false),
  ([27, 91, 79, 66], special keyShiftDown false),
  ([27, 91, 79, 67], special keyShiftRight false),
  ([27, 91, 79, 68], special keyShiftLeft false),
  ([27, 91, 97], special keyShiftUp false),
  ([27, 91, 98], special keyShiftDown false),
  ([27, 91, 99], special keyShiftRight false),
  ([27, 91, 100], special keyShiftLeft false),
  ([27, 91, 49, 59, 51, 65], special keyUp true),
  ([27, 91, 49, 59, 51, 66], special keyDown true),
  ([27, 91, 49, 59, 51, 67], special keyRight true),
  ([27, 91, 49, 59, 51, 68], special keyLeft true),
  ([27, 91, 49, 59, 52, 65], special keyShiftUp true),
  ([27, 91, 49, 59, 52, 66], special keyShiftDown true),
  ([27, 91, 49, 59, 52, 67], special keyShiftRight true),
  ([27, 91, 49, 59, 52, 68], special keyShiftLeft true),
  ([27, 91, 49, 59, 53, 65], special keyCtrlUp false),
  ([27, 91, 49, 59, 53, 66], special keyCtrlDown false),
  ([27, 91, 49, 59, 53, 67], special keyCtrlRight false),
  ([27, 91, 49, 59, 53, 68], special keyCtrlLeft false),
  ([27, 91, 79, 97], special keyCtrlUp true),
  ([27, 91, 79, 98], special keyCtrlDown true),
  ([27, 91, 79, 99], special keyCtrlRight true),
  ([27, 91, 79, 100], special keyCtrlLeft true),
  ([27, 91, 49, 59, 54, 65], special keyCtrlShiftUp false),
  ([27, 91, 49, 59, 54, 66], special keyCtrlShiftDown false),
  ([27, 91, 49, 59, 54, 67], special keyCtrlShiftRight false),
  ([27, 91, 49, 59, 54, 68], special keyCtrlShiftLeft false),
  ([27, 91, 49, 59, 55, 65], special keyCtrlUp true),
  ([27, 91, 49, 59, 55, 66], special keyCtrlDown true),
  ([27, 91, 49, 59, 55, 67], special keyCtrlRight true),
  ([27, 91, 49, 59, 55, 68], special keyCtrlLeft true),
  ([27, 91, 49, 59, 56, 65], special keyCtrlShiftUp true),
  ([27, 91, 49, 59, 56, 66], special keyCtrlShiftDown true),
  ([27, 91, 49, 59, 56, 67], special keyCtrlShiftRight true),
  ([27, 91, 49, 59, 56, 68], special keyCtrlShiftLeft true),
  ([27, 91, 90], special keyShiftTab false),
  ([27, 91, 50, 126], special keyInsert false),
  ([27, 91, 51, 59, 50, 126], special keyInsert true),
  ([27, 91, 51, 126], special keyDelete false),
  ([27, 91, 51, 59, 51, 126], special keyDelete true),
  ([27, 91, 53, 126], special keyPgUp false),
  ([27, 91, 53, 59, 51, 126], special keyPgUp true),
  ([27, 91, 53, 59, 53, 126], special keyCtrlPgUp false),
  ([27, 91, 53, 94], special keyCtrlPgUp false),
  ([27, 91, 53, 59, 55, 126], special keyCtrlPgUp true),
  ([27, 91, 54, 126], special keyPgDown false),
  ([27, 91, 54, 59, 51, 126], special keyPgDown true),
  ([27, 91, 54, 59, 53, 126], special keyCtrlPgDown false),
  ([27, 91, 54, 94], special keyCtrlPgDown false),
  ([27, 91, 54, 59, 55, 126], special keyCtrlPgDown true),
  ([27, 91, 49, 126], special keyHome false),
  ([27, 91, 72], special keyHome false),
  ([27, 91, 49, 59, 51, 72], special keyHome true),
  ([27, 91, 49, 59, 53, 72], special keyCtrlHome false),
  ([27, 91, 49, 59, 55, 72], special keyCtrlHome true),
  ([27, 91, 49, 59, 50, 72], special keyShiftHome false),
  ([27, 91, 49, 59, 52, 72], special keyShiftHome true),
  ([27, 91, 49, 59, 54, 72], special keyCtrlShiftHome false),
  ([27, 91, 49, 59, 56, 72], special keyCtrlShiftHome true),
  ([27, 91, 52, 126], special keyEnd false),
  ([27, 91, 70], special keyEnd false),
  ([27, 91, 49, 59, 51, 70], special keyEnd true),
  ([27, 91, 49, 59, 53, 70], special keyCtrlEnd false),
  ([27, 91, 49, 59, 55, 70], special keyCtrlEnd true),
  ([27, 91, 49, 59, 50, 70], special keyShiftEnd false),
  ([27, 91, 49, 59, 52, 70], special keyShiftEnd true),
  ([27, 91, 49, 59, 54, 70], special keyCtrlShiftEnd false),
  ([27, 91, 49, 59, 56, 70], special keyCtrlShiftEnd true),
  ([27, 91, 55, 126], special keyHome false),
  ([27, 91, 55, 94], special keyCtrlHome false),
  ([27, 91, 55, 36], special keyShiftHome false),
  ([27, 91, 55, 64], special keyCtrlShiftHome false),
  ([27, 91, 56, 126], special keyEnd false),
  ([27, 91, 56, 94], special keyCtrlEnd false),
  ([27, 91, 56, 36], special keyShiftEnd false),
  ([27, 91, 56, 64], special keyCtrlShiftEnd false),
  ([27, 91, 91, 65], special keyF1 false),
  ([27, 91, 91, 66], special keyF2 false),
  ([27, 91, 91, 67], special keyF3 false),
  ([27, 91, 91, 68], special keyF4 false),
  ([27, 91, 91, 69], special keyF5 false),
  ([27, 79, 80], special keyF1 false),
  ([27, 79, 81], special keyF2 false),
  ([27, 79, 82], special keyF3 false),
  ([27, 79, 83], special keyF4 false),
  ([27, 91, 49, 59, 51, 80], special keyF1 true),
  ([27, 91, 49, 59, 51, 81], special keyF2 true),
  ([27, 91, 49, 59, 51, 82], special keyF3 true),
  ([27, 91, 49, 59, 51, 83], special keyF4 true),
  ([27, 91, 49, 49, 126], special keyF1 false),
  ([27, 91, 49, 50, 126], special keyF2 false),
  ([27, 91, 49, 51, 126], special keyF3 false),
  ([27, 91, 49, 52, 126], special keyF4 false),
  ([27, 91, 49, 53, 126], special keyF5 false),
  ([27, 91, 49, 53, 59, 51, 126], special keyF5 true),
  ([27, 91, 49, 55, 126], special keyF6 false),
  ([27, 91, 49, 56, 126], special keyF7 false),
  ([27, 91, 49, 57, 126], special keyF8 false),
  ([27, 91, 50, 48, 126], special keyF9 false),
  ([27, 91, 50, 49, 126], special keyF10 false),
  ([27, 91, 49, 55, 59, 51, 126], special keyF6 true),
  ([27, 91, 49, 56, 59, 51, 126], special keyF7 true),
  ([27, 91, 49, 57, 59, 51, 126], special keyF8 true),
  ([27, 91, 50, 48, 59, 51, 126], special keyF9 true),
  ([27, 91, 50, 49, 59, 51, 126], special keyF10 true),
  ([27, 91, 50, 51, 126], special keyF11 false),
  ([27, 91, 50, 52, 126], special keyF12 false),
  ([27, 91, 50, 51, 59, 51, 126], special keyF11 true),
  ([27, 91, 50, 52, 59, 51, 126], special keyF12 true),
  ([27, 91, 49, 59, 50, 80], special keyF13 false),
  ([27, 91, 49, 59, 50, 81], special keyF14 false),
  ([27, 91, 50, 53, 126], special keyF13 false),
  ([27, 91, 50, 54, 126], special keyF14 false),
  ([27, 91, 50, 53, 59, 51, 126], special keyF13 true),
  ([27, 91, 50, 54, 59, 51, 126], special keyF14 true),
  ([27, 91, 49, 59, 50, 82], special keyF15 false),
  ([27, 91, 49, 59, 50, 83], special keyF16 false),
  ([27, 91, 50, 56, 126], special keyF15 false),
  ([27, 91, 50, 57, 126], special keyF16 false),
  ([27, 91, 50, 56, 59, 51, 126], special keyF15 true),
  ([27, 91, 50, 57, 59, 51, 126], special keyF16 true),
  ([27, 91, 49, 53, 59, 50, 126], special keyF17 false),
  ([27, 91, 49, 55, 59, 50, 126], special keyF18 false),
  ([27, 91, 49, 56, 59, 50, 126], special keyF19 false),
  ([27, 91, 49, 57, 59, 50, 126], special keyF20 false),
  ([27, 91, 51, 49, 126], special keyF17 false),
  ([27, 91, 51, 50, 126], special keyF18 false),
  ([27, 91, 51, 51, 126], special keyF19 false),
  ([27, 91, 51, 52, 126], special keyF20 false),
  ([27, 79, 65], special keyUp false),
  ([27, 79, 66], special keyDown false),
  ([27, 79, 67], special keyRight false),
  ([27, 79, 68], special keyLeft false)]

/-- `/repo/input.go:69-94` — `Key.String`, as a list of code points. -/
def keyString (k : Key) : List Rune :=
  let pre : List Rune := if k.alt then "alt+".toList.map Char.toNat else []
  if k.type = keyRunes then
    pre ++ (if k.paste then [91] else []) ++ k.runes ++ (if k.paste then [93] else [])
  else
    match keyNames.lookup k.type with
    | some s => pre ++ s.toList.map Char.toNat
    | none => []

/-- `/repo/input.go:805-814` — the control characters in the table, without NUL and ESC. -/
def controls : List Byte := (List.range 32).filter (fun i => i ≠ 0 ∧ i ≠ 27) ++ [127]

/-- `/repo/input.go:795-819` — `extSequences`. The entries are pairwise different, so the order in
which Go fills the map does not matter (`extSequences_nodup`). -/
def extSequences : List (List Byte × Key) :=
  sequences ++
  (sequences.filter fun s => !s.2.alt).map (fun s => (27 :: s.1, { s.2 with alt := true })) ++
  controls.map (fun i : Nat => ([i], special (i : Int) false)) ++
  controls.map (fun i : Nat => ([27, i], special (i : Int) true)) ++
  [([32], ⟨keySpace, [32], false, false⟩), ([27, 32], ⟨keySpace, [32], true, false⟩),
   ([27, 27], special 27 true)]

/-- `/repo/input.go:777-788` — `seqLengths`, the sizes of the sequences, largest first (none is
longer than 20). -/
def seqLengths : List Nat :=
  ((List.range 21).filter fun n => extSequences.any fun s => s.1.length == n).reverse

/-- The messages of the reader. -/
inductive Msg
  | key (k : Key)
  | mouse (m : MouseEvent)
  | focus
  | blur
  | unknownByte (b : Byte)
  | unknownCSI (bs : List Byte)
  deriving DecidableEq, Repr

/-- `/repo/input.go:612` — `unknownCSIRe`: the length of the match. The three character classes are
disjoint, so greedy matching never has to backtrack. -/
def csiLength (b : List Byte) : Option Nat :=
  match b with
  | 27 :: 91 :: rest =>
    let isParam : Byte → Bool := fun c => decide (48 ≤ c) && decide (c ≤ 63)
    let isInter : Byte → Bool := fun c => decide (32 ≤ c) && decide (c ≤ 47)
    let params := rest.takeWhile isParam
    let r1 := rest.dropWhile isParam
    let inters := r1.takeWhile isInter
    match r1.dropWhile isInter with
    | c :: _ =>
      if 64 ≤ c ∧ c ≤ 126 then some (2 + params.length + inters.length + 1) else none
    | [] => none
  | _ => none

/-- `/repo/input.go:825-835` — the loop of `detectSequence`: the longest sequence in the table that
starts the input. -/
def longestIn (b : List Byte) : List Nat → Option (Nat × Key)
  | [] => none
  | sz :: rest =>
    if sz > b.length then longestIn b rest
    else
      match extSequences.lookup (b.take sz) with
      | some key => some (sz, key)
      | none => longestIn b rest

/-- `/repo/input.go:823-841` — `detectSequence`. -/
def detectSequence (b : List Byte) : Option (Nat × Msg) :=
  match longestIn b seqLengths with
  | some (w, key) => some (w, .key key)
  | none =>
    match csiLength b with
    | some w => some (w, .unknownCSI (b.take w))
    | none => none

/-- `/repo/input.go:739` — `bpStart`, `ESC [ 2 0 0 ~`. -/
def bpStart : List Byte := [27, 91, 50, 48, 48, 126]

/-- `/repo/input.go:749` — `bpEnd`, `ESC [ 2 0 1 ~`. -/
def bpEnd : List Byte := [27, 91, 50, 48, 49, 126]

/-- `bytes.Index`: where the needle first occurs. -/
def indexOf (needle : List Byte) : List Byte → Option Nat
  | [] => if needle = [] then some 0 else none
  | c :: s => if needle.isPrefixOf (c :: s) then some 0 else (indexOf needle s).map (· + 1)

/-- `/repo/input.go:764-770` — the runes of a paste, invalid bytes skipped. -/
def pasteRunes : Nat → List Byte → List Rune
  | 0, _ => []
  | _ + 1, [] => []
  | n + 1, b :: bs =>
    let d := Utf8.decodeRune (b :: bs)
    if d.1 ≠ Utf8.runeError then d.1 :: pasteRunes n ((b :: bs).drop d.2)
    else pasteRunes n ((b :: bs).drop d.2)

/-- The outcome of looking for one message: ask for more data, or a message and the number of bytes
it took. -/
inductive Detected
  | more
  | msg (w : Nat) (m : Msg)
  deriving DecidableEq, Repr

/-- `/repo/input.go:737-773` — `detectBracketedPaste`; `none` when there is no start marker. -/
def detectPaste (b : List Byte) : Option Detected :=
  if bpStart.isPrefixOf b then
    match indexOf bpEnd (b.drop 6) with
    | none => some .more
    | some idx =>
      let paste := (b.drop 6).take idx
      some (.msg (6 + idx + 6) (.key ⟨keyRunes, pasteRunes paste.length paste, false, true⟩))
  else none

/-- `/repo/input.go:721-729` — `detectReportFocus`. -/
def detectFocus (b : List Byte) : Option Detected :=
  if b = [27, 91, 73] then some (.msg 3 .focus)
  else if b = [27, 91, 79] then some (.msg 3 .blur)
  else none

/-- `/repo/input.go:617-631` — mouse reports. -/
def detectMouse (b : List Byte) : Option Detected :=
  match b with
  | 27 :: 91 :: 77 :: b0 :: b1 :: b2 :: _ => some (.msg 6 (.mouse (Mouse.parseX10 b0 b1 b2)))
  | 27 :: 91 :: 60 :: rest =>
    if 6 ≤ b.length then
      (Mouse.sgrFind rest).map fun p => .msg (p.2 + 3) (.mouse (Mouse.parseSGR p.1))
    else none
  | _ => none

/-- `/repo/input.go:676` — where a run of runes ends. -/
def stopsRun (r : Rune) : Bool :=
  r == Utf8.runeError || decide (r ≤ 31) || r == 127 || r == 32

/-- `/repo/input.go:673-687` — the run of runes at the start of the input, and its length in bytes. -/
def runesLoop (alt : Bool) : Nat → List Byte → List Rune × Nat
  | 0, _ => ([], 0)
  | _ + 1, [] => ([], 0)
  | n + 1, b :: bs =>
    let d := Utf8.decodeRune (b :: bs)
    if stopsRun d.1 then ([], 0)
    else if alt then ([d.1], d.2)
    else
      let r := runesLoop alt n ((b :: bs).drop d.2)
      (d.1 :: r.1, d.2 + r.2)

/-- `/repo/input.go:656-716` — the part of `detectOneMsg` after the sequences. -/
def detectText (b : List Byte) (canHaveMoreData : Bool) : Detected :=
  let alt := b.head? == some 27
  let i0 := if alt then 1 else 0
  if (b.drop i0).head? = some 0 then .msg (i0 + 1) (.key (special 0 alt))
  else
    let r := runesLoop alt b.length (b.drop i0)
    let i := i0 + r.2
    if i ≥ b.length ∧ canHaveMoreData then .more
    else if r.1 ≠ [] then
      .msg i (.key ⟨if r.1 = [32] then keySpace else keyRunes, r.1, alt, false⟩)
    else if alt ∧ b.length = 1 then .msg 1 (.key (special 27 false))
    else .msg 1 (.unknownByte (b.headD 0))

/-- `/repo/input.go:616-717` — `detectOneMsg`, for at least one byte. -/
def detectOneMsg (b : List Byte) (canHaveMoreData : Bool) : Detected :=
  match detectMouse b with
  | some d => d
  | none =>
    match detectFocus b with
    | some d => d
    | none =>
      match detectPaste b with
      | some d => d
      | none =>
        match detectSequence b with
        | some (w, m) => .msg w m
        | none => detectText b canHaveMoreData

/-- `/repo/input.go:585-607` — the messages in the bytes at hand, each with the bytes it was made of
(kept for the specification), and the bytes left over. -/
def decodeAll (more : Bool) : Nat → List Byte → List (List Byte × Msg) × List Byte
  | _, [] => ([], [])
  | 0, b => ([], b)
  | n + 1, c :: bs =>
    match detectOneMsg (c :: bs) more with
    | .more => ([], c :: bs)
    | .msg w m =>
      let r := decodeAll more n ((c :: bs).drop w)
      (((c :: bs).take w, m) :: r.1, r.2)

/-- `/repo/input.go:561` — the size of the read buffer. -/
def bufSize : Nat := 256

/-- `/repo/input.go:565-608` — one round of `readAnsiInputs`: a read of at most 256 bytes, with the
bytes left over from the round before. -/
def readStep (left chunk : List Byte) : List (List Byte × Msg) × List Byte :=
  let b := left ++ chunk
  decodeAll (chunk.length == bufSize) b.length b

/-- `/repo/input.go:560-609` — `readAnsiInputs` over a sequence of reads: the messages sent and the
bytes left over. Cancellation and read errors just end the sequence. -/
def readAll : List Byte → List (List Byte) → List (List Byte × Msg) × List Byte
  | left, [] => ([], left)
  | left, chunk :: chunks =>
    let r := readStep left chunk
    let rs := readAll r.2 chunks
    (r.1 ++ rs.1, rs.2)

end Input

end Bento
