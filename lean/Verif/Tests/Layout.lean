import Verif.Lemmas.FastLoop

/-!
# The repository's own layout tests, run on the model

These are tests, not proofs.  Every case of `/repo/layout_test.go` is evaluated with the list-based
solver, which `split_fast` proves to compute the same outcome as the model, for several orders of the
solver's maps.  They support the claim that the model is the code.
-/

namespace Bento.Tests

open Layout

/-- A scrambled order of the maps. -/
def scrambled (seed i : Nat) : Nat :=
  ((seed * 7919 + i + 1) * 6364136223846793005 + 1442695040888963407) / 65536 % 65536

def orders : List (Nat → Nat) :=
  [fun _ => 0, fun _ => 1, fun _ => 2, scrambled 1, scrambled 2, scrambled 3]

/-- `/repo/layout_test.go:1211-1239` — `letters`: segment `i` is filled with the `i`-th letter. -/
def letters (w : Nat) : Outcome → String
  | .ok segments _ => String.ofList ((List.range w).map fun x =>
      (List.zip "abcdefgh".toList segments).foldl
        (fun c p => if p.2.x ≤ x ∧ (x : Int) < p.2.x + p.2.width then p.1 else c) ' ')
  | .panics => "panic"
  | .running => "running"

/-- `/repo/layout_test.go:20-22` — one case of the table. -/
def agrees (flex : Flex) (w : Nat) (cs : List Constraint) (want : String) : Bool :=
  orders.all fun ω =>
    letters w (fastSplit ω 300 ⟨.horizontal, cs, Padding.none', flex, .space 0⟩ ⟨0, 0, w, 1⟩) == want

/-- `/repo/layout_test.go:1158-1170` — one edge case. -/
def splitsTo (d : Direction) (cs : List Constraint) (area : Rect) (want : List Rect) : Bool :=
  orders.all fun ω =>
    match fastSplit ω 300 ⟨d, cs, Padding.none', .legacy, .other⟩ area with
    | .ok segments _ => segments == want
    | _ => false

-- width 1 zero
#guard agrees .legacy 1 [.len 0] "a"
-- width 1 exact
#guard agrees .legacy 1 [.len 1] "a"
-- width 1 overflow
#guard agrees .legacy 1 [.len 2] "a"
-- width 2 zero
#guard agrees .legacy 2 [.len 0] "aa"
-- width 2 underflow
#guard agrees .legacy 2 [.len 1] "aa"
-- width 2 exact
#guard agrees .legacy 2 [.len 2] "aa"
-- width 2 overflow
#guard agrees .legacy 2 [.len 3] "aa"
-- width 1 zero zero
#guard agrees .legacy 1 [.len 0, .len 0] "b"
-- width 1 zero exact
#guard agrees .legacy 1 [.len 0, .len 1] "b"
-- width 1 zero overflow
#guard agrees .legacy 1 [.len 0, .len 2] "b"
-- width 1 exact zero
#guard agrees .legacy 1 [.len 1, .len 0] "a"
-- width 1 exact exact
#guard agrees .legacy 1 [.len 1, .len 1] "a"
-- width 1 exact overflow
#guard agrees .legacy 1 [.len 1, .len 2] "a"
-- width 1 overflow zero
#guard agrees .legacy 1 [.len 2, .len 0] "a"
-- width 1 overflow exact
#guard agrees .legacy 1 [.len 2, .len 1] "a"
-- width 1 overflow overflow
#guard agrees .legacy 1 [.len 2, .len 2] "a"
-- width 2 zero zero
#guard agrees .legacy 2 [.len 0, .len 0] "bb"
-- width 2 zero underflow
#guard agrees .legacy 2 [.len 0, .len 1] "bb"
-- width 2 zero exact
#guard agrees .legacy 2 [.len 0, .len 2] "bb"
-- width 2 zero overflow
#guard agrees .legacy 2 [.len 0, .len 3] "bb"
-- width 2 underflow zero
#guard agrees .legacy 2 [.len 1, .len 0] "ab"
-- width 2 underflow underflow
#guard agrees .legacy 2 [.len 1, .len 1] "ab"
-- width 2 underflow exact
#guard agrees .legacy 2 [.len 1, .len 2] "ab"
-- width 2 underflow overflow
#guard agrees .legacy 2 [.len 1, .len 3] "ab"
-- width 2 exact zero
#guard agrees .legacy 2 [.len 2, .len 0] "aa"
-- width 2 exact underflow
#guard agrees .legacy 2 [.len 2, .len 1] "aa"
-- width 2 exact exact
#guard agrees .legacy 2 [.len 2, .len 2] "aa"
-- width 2 exact overflow
#guard agrees .legacy 2 [.len 2, .len 3] "aa"
-- width 2 overflow zero
#guard agrees .legacy 2 [.len 3, .len 0] "aa"
-- width 2 overflow underflow
#guard agrees .legacy 2 [.len 3, .len 1] "aa"
-- width 2 overflow exact
#guard agrees .legacy 2 [.len 3, .len 2] "aa"
-- width 2 overflow overflow
#guard agrees .legacy 2 [.len 3, .len 3] "aa"
-- width 3 with stretch last
#guard agrees .legacy 3 [.len 2, .len 2] "aab"
-- width 1 zero
#guard agrees .legacy 1 [.max 0] "a"
-- width 1 exact
#guard agrees .legacy 1 [.max 1] "a"
-- width 1 overflow
#guard agrees .legacy 1 [.max 2] "a"
-- width 2 zero
#guard agrees .legacy 2 [.max 0] "aa"
-- width 2 underflow
#guard agrees .legacy 2 [.max 1] "aa"
-- width 2 exact
#guard agrees .legacy 2 [.max 2] "aa"
-- width 2 overflow
#guard agrees .legacy 2 [.max 3] "aa"
-- width 1 zero zero
#guard agrees .legacy 1 [.max 0, .max 0] "b"
-- width 1 zero exact
#guard agrees .legacy 1 [.max 0, .max 1] "b"
-- width 1 zero overflow
#guard agrees .legacy 1 [.max 0, .max 2] "b"
-- width 1 exact zero
#guard agrees .legacy 1 [.max 1, .max 0] "a"
-- width 1 exact exact
#guard agrees .legacy 1 [.max 1, .max 1] "a"
-- width 1 exact overflow
#guard agrees .legacy 1 [.max 1, .max 2] "a"
-- width 1 overflow zero
#guard agrees .legacy 1 [.max 2, .max 0] "a"
-- width 1 overflow exact
#guard agrees .legacy 1 [.max 2, .max 1] "a"
-- width 1 overflow overflow
#guard agrees .legacy 1 [.max 2, .max 2] "a"
-- width 2 zero zero
#guard agrees .legacy 2 [.max 0, .max 0] "bb"
-- width 2 zero underflow
#guard agrees .legacy 2 [.max 0, .max 1] "bb"
-- width 2 zero exact
#guard agrees .legacy 2 [.max 0, .max 2] "bb"
-- width 2 zero overflow
#guard agrees .legacy 2 [.max 0, .max 3] "bb"
-- width 2 underflow zero
#guard agrees .legacy 2 [.max 1, .max 0] "ab"
-- width 2 underflow underflow
#guard agrees .legacy 2 [.max 1, .max 1] "ab"
-- width 2 underflow exact
#guard agrees .legacy 2 [.max 1, .max 2] "ab"
-- width 2 underflow overflow
#guard agrees .legacy 2 [.max 1, .max 3] "ab"
-- width 2 exact zero
#guard agrees .legacy 2 [.max 2, .max 0] "aa"
-- width 2 exact underflow
#guard agrees .legacy 2 [.max 2, .max 1] "aa"
-- width 2 exact exact
#guard agrees .legacy 2 [.max 2, .max 2] "aa"
-- width 2 exact overflow
#guard agrees .legacy 2 [.max 2, .max 3] "aa"
-- width 2 overflow zero
#guard agrees .legacy 2 [.max 3, .max 0] "aa"
-- width 2 overflow underflow
#guard agrees .legacy 2 [.max 3, .max 1] "aa"
-- width 2 overflow exact
#guard agrees .legacy 2 [.max 3, .max 2] "aa"
-- width 2 overflow overflow
#guard agrees .legacy 2 [.max 3, .max 3] "aa"
-- width 3 with stretch last
#guard agrees .legacy 3 [.max 2, .max 2] "aab"
-- width 1 min zero zero
#guard agrees .legacy 1 [.min 0, .min 0] "b"
-- width 1 min zero exact
#guard agrees .legacy 1 [.min 0, .min 1] "b"
-- width 1 min zero overflow
#guard agrees .legacy 1 [.min 0, .min 2] "b"
-- width 1 min exact zero
#guard agrees .legacy 1 [.min 1, .min 0] "a"
-- width 1 min exact exact
#guard agrees .legacy 1 [.min 1, .min 1] "a"
-- width 1 min exact overflow
#guard agrees .legacy 1 [.min 1, .min 2] "a"
-- width 1 min overflow zero
#guard agrees .legacy 1 [.min 2, .min 0] "a"
-- width 1 min overflow exact
#guard agrees .legacy 1 [.min 2, .min 1] "a"
-- width 1 min overflow overflow
#guard agrees .legacy 1 [.min 2, .min 2] "a"
-- width 2 min zero zero
#guard agrees .legacy 2 [.min 0, .min 0] "bb"
-- width 2 min zero underflow
#guard agrees .legacy 2 [.min 0, .min 1] "bb"
-- width 2 min zero exact
#guard agrees .legacy 2 [.min 0, .min 2] "bb"
-- width 2 min zero overflow
#guard agrees .legacy 2 [.min 0, .min 3] "bb"
-- width 2 min underflow zero
#guard agrees .legacy 2 [.min 1, .min 0] "ab"
-- width 2 min underflow underflow
#guard agrees .legacy 2 [.min 1, .min 1] "ab"
-- width 2 min underflow exact
#guard agrees .legacy 2 [.min 1, .min 2] "ab"
-- width 2 min underflow overflow
#guard agrees .legacy 2 [.min 1, .min 3] "ab"
-- width 2 min exact zero
#guard agrees .legacy 2 [.min 2, .min 0] "aa"
-- width 2 min exact underflow
#guard agrees .legacy 2 [.min 2, .min 1] "aa"
-- width 2 min exact exact
#guard agrees .legacy 2 [.min 2, .min 2] "aa"
-- width 2 min exact overflow
#guard agrees .legacy 2 [.min 2, .min 3] "aa"
-- width 2 min overflow zero
#guard agrees .legacy 2 [.min 3, .min 0] "aa"
-- width 2 min overflow underflow
#guard agrees .legacy 2 [.min 3, .min 1] "aa"
-- width 2 min overflow exact
#guard agrees .legacy 2 [.min 3, .min 2] "aa"
-- width 2 min overflow overflow
#guard agrees .legacy 2 [.min 3, .min 3] "aa"
-- width 3 min with stretch last
#guard agrees .legacy 3 [.min 2, .min 2] "aab"
-- Flex Start with Percentage 0, 0
#guard agrees .start 10 [.percentage 0, .percentage 0] "          "
-- Flex Start with Percentage 0, 25
#guard agrees .start 10 [.percentage 0, .percentage 25] "bbb       "
-- Flex Start with Percentage 0, 50
#guard agrees .start 10 [.percentage 0, .percentage 50] "bbbbb     "
-- Flex Start with Percentage 0, 100
#guard agrees .start 10 [.percentage 0, .percentage 100] "bbbbbbbbbb"
-- Flex Start with Percentage 0, 200
#guard agrees .start 10 [.percentage 0, .percentage 200] "bbbbbbbbbb"
-- Flex Start with Percentage 10, 0
#guard agrees .start 10 [.percentage 10, .percentage 0] "a         "
-- Flex Start with Percentage 10, 25
#guard agrees .start 10 [.percentage 10, .percentage 25] "abbb      "
-- Flex Start with Percentage 10, 50
#guard agrees .start 10 [.percentage 10, .percentage 50] "abbbbb    "
-- Flex Start with Percentage 10, 100
#guard agrees .start 10 [.percentage 10, .percentage 100] "abbbbbbbbb"
-- Flex Start with Percentage 10, 200
#guard agrees .start 10 [.percentage 10, .percentage 200] "abbbbbbbbb"
-- Flex Start with Percentage 25, 0
#guard agrees .start 10 [.percentage 25, .percentage 0] "aaa       "
-- Flex Start with Percentage 25, 25
#guard agrees .start 10 [.percentage 25, .percentage 25] "aaabb     "
-- Flex Start with Percentage 25, 50
#guard agrees .start 10 [.percentage 25, .percentage 50] "aaabbbbb  "
-- Flex Start with Percentage 25, 100
#guard agrees .start 10 [.percentage 25, .percentage 100] "aaabbbbbbb"
-- Flex Start with Percentage 25, 200
#guard agrees .start 10 [.percentage 25, .percentage 200] "aaabbbbbbb"
-- Flex Start with Percentage 33, 0
#guard agrees .start 10 [.percentage 33, .percentage 0] "aaa       "
-- Flex Start with Percentage 33, 25
#guard agrees .start 10 [.percentage 33, .percentage 25] "aaabbb    "
-- Flex Start with Percentage 33, 50
#guard agrees .start 10 [.percentage 33, .percentage 50] "aaabbbbb  "
-- Flex Start with Percentage 33, 100
#guard agrees .start 10 [.percentage 33, .percentage 100] "aaabbbbbbb"
-- Flex Start with Percentage 33, 200
#guard agrees .start 10 [.percentage 33, .percentage 200] "aaabbbbbbb"
-- Flex Start with Percentage 50, 0
#guard agrees .start 10 [.percentage 50, .percentage 0] "aaaaa     "
-- Flex Start with Percentage 50, 50
#guard agrees .start 10 [.percentage 50, .percentage 50] "aaaaabbbbb"
-- Flex Start with Percentage 50, 100
#guard agrees .start 10 [.percentage 50, .percentage 100] "aaaaabbbbb"
-- Flex Start with Percentage 100, 0
#guard agrees .start 10 [.percentage 100, .percentage 0] "aaaaaaaaaa"
-- Flex Start with Percentage 100, 50
#guard agrees .start 10 [.percentage 100, .percentage 50] "aaaaabbbbb"
-- Flex Start with Percentage 100, 100
#guard agrees .start 10 [.percentage 100, .percentage 100] "aaaaabbbbb"
-- Flex Start with Percentage 100, 200
#guard agrees .start 10 [.percentage 100, .percentage 200] "aaaaabbbbb"
-- Flex SpaceBetween with Percentage 0, 0
#guard agrees .spaceBetween 10 [.percentage 0, .percentage 0] "          "
-- Flex SpaceBetween with Percentage 0, 25
#guard agrees .spaceBetween 10 [.percentage 0, .percentage 25] "        bb"
-- Flex SpaceBetween with Percentage 0, 50
#guard agrees .spaceBetween 10 [.percentage 0, .percentage 50] "     bbbbb"
-- Flex SpaceBetween with Percentage 0, 100
#guard agrees .spaceBetween 10 [.percentage 0, .percentage 100] "bbbbbbbbbb"
-- Flex SpaceBetween with Percentage 0, 200
#guard agrees .spaceBetween 10 [.percentage 0, .percentage 200] "bbbbbbbbbb"
-- Flex SpaceBetween with Percentage 10, 0
#guard agrees .spaceBetween 10 [.percentage 10, .percentage 0] "a         "
-- Flex SpaceBetween with Percentage 10, 25
#guard agrees .spaceBetween 10 [.percentage 10, .percentage 25] "a       bb"
-- Flex SpaceBetween with Percentage 10, 50
#guard agrees .spaceBetween 10 [.percentage 10, .percentage 50] "a    bbbbb"
-- Flex SpaceBetween with Percentage 10, 100
#guard agrees .spaceBetween 10 [.percentage 10, .percentage 100] "abbbbbbbbb"
-- Flex SpaceBetween with Percentage 10, 200
#guard agrees .spaceBetween 10 [.percentage 10, .percentage 200] "abbbbbbbbb"
-- Flex SpaceBetween with Percentage 25, 0
#guard agrees .spaceBetween 10 [.percentage 25, .percentage 0] "aaa       "
-- Flex SpaceBetween with Percentage 25, 25
#guard agrees .spaceBetween 10 [.percentage 25, .percentage 25] "aaa     bb"
-- Flex SpaceBetween with Percentage 25, 50
#guard agrees .spaceBetween 10 [.percentage 25, .percentage 50] "aaa  bbbbb"
-- Flex SpaceBetween with Percentage 25, 100
#guard agrees .spaceBetween 10 [.percentage 25, .percentage 100] "aaabbbbbbb"
-- Flex SpaceBetween with Percentage 25, 200
#guard agrees .spaceBetween 10 [.percentage 25, .percentage 200] "aaabbbbbbb"
-- Flex SpaceBetween with Percentage 33, 0
#guard agrees .spaceBetween 10 [.percentage 33, .percentage 0] "aaa       "
-- Flex SpaceBetween with Percentage 33, 25
#guard agrees .spaceBetween 10 [.percentage 33, .percentage 25] "aaa     bb"
-- Flex SpaceBetween with Percentage 33, 50
#guard agrees .spaceBetween 10 [.percentage 33, .percentage 50] "aaa  bbbbb"
-- Flex SpaceBetween with Percentage 33, 100
#guard agrees .spaceBetween 10 [.percentage 33, .percentage 100] "aaabbbbbbb"
-- Flex SpaceBetween with Percentage 33, 200
#guard agrees .spaceBetween 10 [.percentage 33, .percentage 200] "aaabbbbbbb"
-- Flex SpaceBetween with Percentage 50, 0
#guard agrees .spaceBetween 10 [.percentage 50, .percentage 0] "aaaaa     "
-- Flex SpaceBetween with Percentage 50, 50
#guard agrees .spaceBetween 10 [.percentage 50, .percentage 50] "aaaaabbbbb"
-- Flex SpaceBetween with Percentage 50, 100
#guard agrees .spaceBetween 10 [.percentage 50, .percentage 100] "aaaaabbbbb"
-- Flex SpaceBetween with Percentage 100, 0
#guard agrees .spaceBetween 10 [.percentage 100, .percentage 0] "aaaaaaaaaa"
-- Flex SpaceBetween with Percentage 100, 50
#guard agrees .spaceBetween 10 [.percentage 100, .percentage 50] "aaaaabbbbb"
-- Flex SpaceBetween with Percentage 100, 100
#guard agrees .spaceBetween 10 [.percentage 100, .percentage 100] "aaaaabbbbb"
-- Flex SpaceBetween with Percentage 100, 200
#guard agrees .spaceBetween 10 [.percentage 100, .percentage 200] "aaaaabbbbb"

/-! `/repo/layout_test.go:1090-1172` — `TestEdgeCases` -/

#guard splitsTo .vertical [.percentage 50, .percentage 50, .min 0] ⟨0, 0, 1, 1⟩
  [⟨0, 0, 1, 1⟩, ⟨0, 1, 1, 0⟩, ⟨0, 1, 1, 0⟩]
#guard splitsTo .vertical [.max 1, .percentage 99, .min 0] ⟨0, 0, 1, 1⟩
  [⟨0, 0, 1, 0⟩, ⟨0, 0, 1, 1⟩, ⟨0, 1, 1, 0⟩]
#guard splitsTo .horizontal [.min 1, .len 0, .min 1] ⟨0, 0, 1, 1⟩
  [⟨0, 0, 1, 1⟩, ⟨1, 0, 0, 1⟩, ⟨1, 0, 0, 1⟩]
#guard splitsTo .horizontal [.len 3, .min 4, .len 1, .min 4] ⟨0, 0, 7, 1⟩
  [⟨0, 0, 0, 1⟩, ⟨0, 0, 4, 1⟩, ⟨4, 0, 0, 1⟩, ⟨4, 0, 3, 1⟩]

/-! `/repo/layout_test.go:1174-1209` — `TestFlexConstraint` -/

#guard orders.all fun ω =>
  match fastSplit ω 300 ⟨.horizontal, [.len 50], Padding.none', .end', .space 0⟩ ⟨0, 0, 100, 1⟩ with
  | .ok segments _ => segments.map (fun r => (r.x, r.x + r.width)) == [(50, 100)]
  | _ => false

/-! Not tests of the repository: layouts in which the solver's counter wraps around.  Fourteen buttons
come out right, fifteen do not; nor do eleven equal columns, nor thirty-two rows. -/

/-- The columns of a one-line layout, for the order that always picks the first candidate. -/
def columns (flex : Flex) (cs : List Constraint) (width : Int) : List (Int × Int) :=
  match fastSplit (fun _ => 0) 1000 ⟨.horizontal, cs, Padding.none', flex, .space 0⟩ ⟨0, 0, width, 1⟩ with
  | .ok segments _ => segments.map fun r => (r.x, r.width)
  | _ => []

#guard columns .spaceBetween (List.replicate 14 (.len 1)) 14 = (List.range 14).map fun i => ((i : Int), 1)
#guard columns .spaceBetween (List.replicate 15 (.len 1)) 15 =
  [(0, 0), (1, 0), (1, 0), (2, 0), (2, 0), (3, 1), (4, 1), (5, 1), (6, 1), (8, 1), (9, 1), (10, 1), (11, 1),
    (13, 1), (14, 1)]
#guard columns .spaceBetween (List.replicate 11 (.min 1)) 44 =
  [(0, 8), (8, 7), (15, 8), (23, 7), (30, 8), (38, 1), (39, 1), (40, 1), (41, 1), (42, 1), (43, 1)]
#guard columns .legacy (List.replicate 32 (.len 1)) 32 =
  ((List.range 30).map fun i => ((i : Int), 1)) ++ [(30, 2), (32, 0)]

end Bento.Tests
