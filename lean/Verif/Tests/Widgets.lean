import Verif.Model.ListWidget
import Verif.Model.Tabs

/-!
# The repository's own widget tests, run on the model

These are tests, not proofs.  Every case of `/repo/widget/textwidget/text_test.go`,
`/repo/widget/textwidget/span_test.go` and `/repo/widget/listwidget/list_test.go` is evaluated on the
model.  They support the claim that the model is the code.
-/

namespace Bento.Tests

/-- The segmentation of the strings in the tests: one cluster per character, and the two ideographs
are wide. -/
def wide : Uniseg where
  graphemes s := s.toList.map fun c => String.ofList [c]
  width s := if s = "你" ∨ s = "好" then 2 else 1

/-- `NewLinesStr(ss...).NewBuffer()`. -/
def screen (ss : List String) : Option Buffer :=
  Lines.newBuffer wide (ss.flatMap fun s => newLinesStr s.toList)

/-- Both sides return, and return the same buffer. -/
def same (a b : Option Buffer) : Bool :=
  match a, b with
  | some a, some b => a.area == b.area && a.content == b.content
  | _, _ => false

/-- A text drawn into `area` of an empty buffer. -/
def drawn (t : Text) (area room : Rect) : Option Buffer := Buffer.newEmpty room >>= t.render wide area

def text (s : String) (a : Alignment) : Text := { newTextStr s.toList with alignment := a }

/-! ### `/repo/widget/textwidget/text_test.go:11-189` -/

#guard same (drawn (text "foo" .none) ⟨0, 0, 5, 1⟩ ⟨0, 0, 5, 1⟩) (screen ["foo  "])
#guard same (drawn (text "Hello, World!" .none) ⟨20, 20, 10, 1⟩ ⟨0, 0, 10, 1⟩)
  (Buffer.newEmpty ⟨0, 0, 10, 1⟩)
#guard same (drawn (text "foo" .right) ⟨0, 0, 5, 1⟩ ⟨0, 0, 5, 1⟩) (screen ["  foo"])
#guard same (drawn (text "foo" .center) ⟨0, 0, 5, 1⟩ ⟨0, 0, 5, 1⟩) (screen [" foo "])
#guard same (drawn (text "foo" .center) ⟨0, 0, 6, 1⟩ ⟨0, 0, 6, 1⟩) (screen [" foo  "])
#guard same (drawn (text "123456789" .right) ⟨0, 0, 5, 1⟩ ⟨0, 0, 5, 1⟩) (screen ["56789"])
#guard same (drawn (text "123456789" .center) ⟨0, 0, 5, 1⟩ ⟨0, 0, 5, 1⟩) (screen ["34567"])
#guard same (drawn (text "123456789" .center) ⟨0, 0, 6, 1⟩ ⟨0, 0, 6, 1⟩) (screen ["234567"])
#guard same
  (drawn ⟨Style.new, [newLineStr "foo".toList, { newLineStr "bar".toList with alignment := .center }],
    .right⟩ ⟨0, 0, 5, 2⟩ ⟨0, 0, 5, 2⟩) (screen ["  foo", " bar "])

/-- `termenv.ANSIBlue` as background. -/
def blue : Style := Style.new.withBackground (.ansi 4)

#guard same
  (drawn ⟨Style.new, [{ newLineStr "foo".toList with style := blue }], .none⟩ ⟨0, 0, 5, 1⟩ ⟨0, 0, 5, 1⟩)
  (screen ["foo  "] >>= fun b => b.setStyle ⟨0, 0, 3, 1⟩ blue)
#guard same
  (drawn ⟨Style.new, [{ newLineStr "foobar".toList with style := blue }], .none⟩ ⟨0, 0, 3, 1⟩ ⟨0, 0, 6, 1⟩)
  (screen ["foo   "] >>= fun b => b.setStyle ⟨0, 0, 3, 1⟩ blue)

/-! ### `/repo/widget/textwidget/span_test.go:9-68` -/

#guard Span.truncateStart wide "" 4 == ("", 0)
#guard Span.truncateStart wide "ab" 0 == ("", 0)
#guard Span.truncateStart wide "你好" 0 == ("", 0)
#guard Span.truncateStart wide "abc" 4 == ("abc", 3)
#guard Span.truncateStart wide "你" 4 == ("你", 2)

/-! ### `/repo/widget/listwidget/list_test.go:11-36` -/

/-- `/repo/widget/listwidget/list.go:58-70` — `New(items...).WithHighlightSymbol(">>")`. -/
def items : ListWidget :=
  { items := (List.range 7).map fun i => newTextStr s!"Item {i}".toList
    block := none
    style := Style.new
    direction := .topToBottom
    highlightStyle := Style.new
    highlightSymbol := ">>"
    repeatHighlightSymbol := false
    highlightSpacing := .whenSelected
    scrollPadding := 0 }

#guard same
  (do
    let b ← Buffer.newEmpty ⟨0, 0, 10, 3⟩
    let r ← items.render wide b.area b ((ListWidget.State.new.select 1).setOffset 3)
    some r.1)
  (screen [">>Item 1  ", "  Item 2  ", "  Item 3  "])

end Bento.Tests
