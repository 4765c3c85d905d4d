import Verif.Model.ThrobberExample
import Verif.Spec.Palette
import Verif.Spec.Lazygit

/-!
# What the example program with throbbers shows

The picture that `examples/throbber` shows. Nothing here uses the functions that draw.
-/

namespace Bento.ThrobberExample

/-- The names of the throbbers and what they show, in turn. -/
def acts : List (String × List String) :=
  [("Line", ["|", "/", "-", "\\"]),
    ("HorizontalBlock", ["▏", "▎", "▍", "▌", "▋", "▊", "▉", "█"]),
    ("VerticalBlock", ["▁", "▂", "▃", "▄", "▅", "▆", "▇", "█"]),
    ("BrailleEight", ["⣷", "⣯", "⣟", "⡿", "⢿", "⣻", "⣽", "⣾"]),
    ("Parenthesis", ["⎛", "⎜", "⎝", "⎞", "⎟", "⎠"]),
    ("Canadian", ["ᔐ", "ᯇ", "ᔑ", "ᯇ"]),
    ("Ellipsis", ["", ".", "..", "..."]),
    ("Meter", ["▱▱▱", "▰▱▱", "▰▰▱", "▰▰▰", "▰▰▱", "▰▱▱", "▱▱▱"]),
    ("Pulse", ["█", "▓", "▒", "░"])]

/-- The symbols of the program: the printable characters of ASCII, the lines of the boxes, and the characters of the
throbbers. -/
def Symbols (s : String) : Prop :=
  (∃ c : Char, 32 ≤ c.toNat ∧ c.toNat < 127 ∧ s = String.ofList [c]) ∨ s ∈ ["┌", "┐", "└", "┘", "─", "│"] ∨
    ∃ act ∈ acts, ∃ f ∈ act.2, ∃ c ∈ f.toList, s = String.ofList [c]

/-- Where the `k`-th of three parts of `n` cells begins. -/
def third (n k : Int) : Int := (k * n + 1) / 3

/-- The place of the `i`-th box: three rows of three boxes, below the first row of the screen and above the last one. -/
def boxArea (area : Rect) (i : Nat) : Rect :=
  let c : Int := (i % 3 : Nat)
  let r : Int := (i / 3 : Nat)
  ⟨area.x + third area.width c, area.y + 1 + third (area.height - 2) r, third area.width (c + 1) - third area.width c,
    third (area.height - 2) (r + 1) - third (area.height - 2) r⟩

/-- Column `i` of row `j` of a box of `w` columns and `h` rows: a frame with the title at its top left, and the text in the
middle; if there is no middle, right of it and below it. -/
def boxSymbol (title text : String) (w h i j : Int) : String :=
  if j = 0 ∧ i = 0 then "┌"
  else if j = 0 ∧ i = w - 1 then "┐"
  else if j = h - 1 ∧ i = 0 then "└"
  else if j = h - 1 ∧ i = w - 1 then "┘"
  else if j = 0 then (Lazygit.charAt title (i - 1)).getD "─"
  else if j = h - 1 then "─"
  else if i = 0 ∨ i = w - 1 then "│"
  else if j = h / 2 then (Lazygit.charAt text (i - (w + 1 - text.toList.length) / 2)).getD " "
  else " "

/-- A cell without colours. -/
def plain (symbol : String) : Cell := ⟨symbol, .reset, .reset, 0, false⟩

/-- The picture after `frame` ticks: the speed in the first row, the boxes with the throbbers, and the help in the last
row. -/
structure Pictured (speed : String) (frame : Nat) (area : Rect) (b : Buffer) : Prop where
  first : ∀ q, area.contains q = true → q.y = area.y →
    b.cellAt q = some (plain ((Lazygit.charAt ("FPS " ++ speed) (q.x - area.x)).getD " "))
  boxes : ∀ i name frames f, acts[i]? = some (name, frames) → frames[frame % frames.length]? = some f →
    ∀ q, (boxArea area i).contains q = true → b.cellAt q =
      some (plain (boxSymbol name f (boxArea area i).width (boxArea area i).height (q.x - (boxArea area i).x)
        (q.y - (boxArea area i).y)))
  last : ∀ q, area.contains q = true → q.y = area.y + area.height - 1 →
    b.cellAt q = some (plain ((Lazygit.charAt "\"+\" - increment FPS | \"-\" - decrement FPS" (q.x - area.x)).getD " "))

/-- Drawing a throbber does what `RenderStateful` may do, and it comes to an end. -/
def Throbs (u : Uniseg) (throb : Throb) : Prop :=
  ∀ t area s, ∃ ω ω' fuel, ∀ b, Throbber.render ω ω' fuel u t area b s ≠ .running ∧
    throb t area s b = (Throbber.render ω ω' fuel u t area b s).value

/-- How durations are written: in one short line of symbols. -/
def Writes (S : String → Prop) (duration : Int → String) : Prop :=
  ∀ n, (∀ c ∈ (duration n).toList, S (String.ofList [c])) ∧ byteSize (duration n).toList < 60000

/-- The frame and the speed after some messages: ticks that are accepted, and the keys `+` and `-`. -/
def speedOf (msgs : List (Option (App.Msg Message))) : Int :=
  111111111 + 1000000 * ((msgs.filter (fun g => match g with | some (.user (.input (.key k))) => Lazygit.named k "+" | _ => false)).length -
    (msgs.filter (fun g => match g with | some (.user (.input (.key k))) => Lazygit.named k "-" | _ => false)).length : Int)

end Bento.ThrobberExample
