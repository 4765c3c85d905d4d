import Verif.Model.Buffer
import Verif.Spec.Screen

/-!
# Specification: frames and what a screen showing them looks like
-/

namespace Bento

/-- Whether the cell left of `p` (in the same row of the buffer) is double-width, so that `p` is its
right half. -/
def Buffer.covered (u : Uniseg) (b : Buffer) (p : Position) : Bool :=
  match b.cellAt ⟨p.x - 1, p.y⟩ with
  | some c => u.width c.symbol == 2
  | none => false

/-- Well-formed frames (the assumption documented at `/repo/buffer.go:43-44`): every symbol is a
single grapheme cluster of width one or two, no cell is marked `Skip`, and a double-width symbol is
not in the last column and is followed by a single-width (blank) cell. -/
structure Buffer.Drawable (u : Uniseg) (b : Buffer) : Prop where
  single : ∀ p c, b.cellAt p = some c → u.graphemes c.symbol = [c.symbol]
  width : ∀ p c, b.cellAt p = some c → u.width c.symbol = 1 ∨ u.width c.symbol = 2
  noSkip : ∀ p c, b.cellAt p = some c → c.skip = false
  follow : ∀ p c, b.cellAt p = some c → u.width c.symbol = 2 →
    ∃ c', b.cellAt ⟨p.x + 1, p.y⟩ = some c' ∧ u.width c'.symbol = 1

/-- The grid shows the buffer: every cell of the buffer's area holds the symbol with the pen of the
cell, or the right half of the wide symbol left of it. -/
def Shows (u : Uniseg) (pen : Cell → Pen) (g : Grid) (b : Buffer) : Prop :=
  ∀ p c, b.cellAt p = some c →
    g p = if b.covered u p then .cont else .glyph c.symbol (decide (u.width c.symbol = 2)) (pen c)

/-- Writing a list of positioned cells onto a grid, one after another. -/
def Grid.apply (j : Junk) (u : Uniseg) (pen : Cell → Pen) (g : Grid) (ups : List PositionedCell) :
    Grid :=
  ups.foldl (fun g pc =>
    g.put j pc.pos pc.cell.symbol (decide (u.width pc.cell.symbol = 2)) (pen pc.cell)) g

end Bento
