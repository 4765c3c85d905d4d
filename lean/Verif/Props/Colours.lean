import Mathlib.Data.List.Forall2
import Verif.Props.Style
import Verif.Props.Terminal

/-!
# C89: colour and modifier helpers
-/

namespace Bento

/-- Specification: the last foreground of a chain of builder calls, and the last background. -/
def lastFg : List StyleOp → Option Color
  | [] => none
  | op :: rest => (lastFg rest).or (match op with | .fg c => some c | _ => none)

@[inherit_doc lastFg]
def lastBg : List StyleOp → Option Color
  | [] => none
  | op :: rest => (lastBg rest).or (match op with | .bg c => some c | _ => none)

theorem run_colours (ops : List StyleOp) : ∀ s : Style,
    (ops.foldl StyleOp.run s).fg = (lastFg ops).or s.fg ∧ (ops.foldl StyleOp.run s).bg = (lastBg ops).or s.bg := by
  induction ops with
  | nil => intro s; exact ⟨rfl, rfl⟩
  | cons op rest ih =>
    intro s
    obtain ⟨h1, h2⟩ := ih (op.run s)
    simp only [List.foldl_cons, lastFg, lastBg, h1, h2]
    cases op <;> simp [StyleOp.run, Style.withModifier, Style.withoutModifier, Style.withForeground,
      Style.withBackground] <;> constructor <;> cases lastFg rest <;> cases lastBg rest <;> simp

/-- **C89.** A cell that gets a style made by any chain of builder calls shows the last foreground and the last
background of the chain, and keeps its own where the chain has none; its symbol stays. -/
theorem C89_last_colour_wins (ops : List StyleOp) (c : Cell) :
    (c.setStyle (ops.foldl StyleOp.run Style.new)).fg = (lastFg ops).getD c.fg ∧
    (c.setStyle (ops.foldl StyleOp.run Style.new)).bg = (lastBg ops).getD c.bg ∧
    (c.setStyle (ops.foldl StyleOp.run Style.new)).symbol = c.symbol := by
  obtain ⟨h1, h2⟩ := run_colours ops Style.new
  refine ⟨?_, ?_, rfl⟩
  · simp only [Cell.setStyle, h1]
    cases lastFg ops <;> rfl
  · simp only [Cell.setStyle, h2]
    cases lastBg ops <;> rfl

example : ((Cell.new "x").setStyle ([.fg (.ansi 1), .bg (.ansi 4), .fg (.ansi 2)].foldl StyleOp.run Style.new)).fg = .ansi 2 :=
  (C89_last_colour_wins _ _).1

/-- Specification: what each helper does to the rendition, by its name. -/
def helperMeaning : List (String × (Pen → Pen)) :=
  [("Reversed", (·.on Modifier.reversed)),
   ("CrossedOut", (·.on Modifier.crossedOut)),
   ("Italic", (·.on Modifier.italic)),
   ("Bold", (·.on Modifier.bold)),
   ("Underlined", (·.on Modifier.underlined)),
   ("Dim", (·.on Modifier.dim)),
   ("Black", fun p => { p with fg := .idx 0 }), ("OnBlack", fun p => { p with bg := .idx 0 }),
   ("Red", fun p => { p with fg := .idx 1 }), ("OnRed", fun p => { p with bg := .idx 1 }),
   ("Green", fun p => { p with fg := .idx 2 }), ("OnGreen", fun p => { p with bg := .idx 2 }),
   ("Yellow", fun p => { p with fg := .idx 3 }), ("OnYellow", fun p => { p with bg := .idx 3 }),
   ("Blue", fun p => { p with fg := .idx 4 }), ("OnBlue", fun p => { p with bg := .idx 4 }),
   ("Magenta", fun p => { p with fg := .idx 5 }), ("OnMagenta", fun p => { p with bg := .idx 5 }),
   ("Cyan", fun p => { p with fg := .idx 6 }), ("OnCyan", fun p => { p with bg := .idx 6 }),
   ("White", fun p => { p with fg := .idx 7 }), ("OnWhite", fun p => { p with bg := .idx 7 }),
   ("BrightBlack", fun p => { p with fg := .idx 8 }), ("OnBrightBlack", fun p => { p with bg := .idx 8 }),
   ("BrightRed", fun p => { p with fg := .idx 9 }), ("OnBrightRed", fun p => { p with bg := .idx 9 }),
   ("BrightGreen", fun p => { p with fg := .idx 10 }), ("OnBrightGreen", fun p => { p with bg := .idx 10 }),
   ("BrightYellow", fun p => { p with fg := .idx 11 }), ("OnBrightYellow", fun p => { p with bg := .idx 11 }),
   ("BrightBlue", fun p => { p with fg := .idx 12 }), ("OnBrightBlue", fun p => { p with bg := .idx 12 }),
   ("BrightMagenta", fun p => { p with fg := .idx 13 }), ("OnBrightMagenta", fun p => { p with bg := .idx 13 }),
   ("BrightCyan", fun p => { p with fg := .idx 14 }), ("OnBrightCyan", fun p => { p with bg := .idx 14 }),
   ("BrightWhite", fun p => { p with fg := .idx 15 }), ("OnBrightWhite", fun p => { p with bg := .idx 15 })]

theorem and_ones (m : BitVec 16) : m &&& 65535#16 = m := BitVec.and_allOnes

theorem helper_fg (T : Termenv) (n : Nat) (hn : n < 16) (hT : T.convert (.ansi n) = some (.ansi n)) (c : Cell) :
    penOf T (c.setStyle (Style.new.withForeground (.ansi n))) = { penOf T c with fg := .idx n } := by
  simp [penOf, penOf', Cell.setStyle, Style.withForeground, Style.new, hT, Color.shown, hn, Modifier.difference,
    Modifier.union, Modifier.none, and_ones]

theorem helper_bg (T : Termenv) (n : Nat) (hn : n < 16) (hT : T.convert (.ansi n) = some (.ansi n)) (c : Cell) :
    penOf T (c.setStyle (Style.new.withBackground (.ansi n))) = { penOf T c with bg := .idx n } := by
  simp [penOf, penOf', Cell.setStyle, Style.withBackground, Style.new, hT, Color.shown, hn, Modifier.difference,
    Modifier.union, Modifier.none, and_ones]

theorem helper_modifier (T : Termenv) (m : Modifier) (c : Cell) :
    penOf T (c.setStyle (Style.new.withModifier m)) = (penOf T c).on m := by
  simp [penOf, penOf', Cell.setStyle, Style.withModifier, Style.new, Modifier.difference, Modifier.union,
    Modifier.none, Pen.on, and_ones]

/-- **C89.** Each of the 38 helpers does to the rendition of every cell what its name says and nothing else: the
colour helpers give the palette colours 0 to 15, the `On` helpers to the background. The profile of the terminal
keeps the sixteen colours. -/
theorem C89_helpers (T : Termenv) (hT : ∀ n < 16, T.convert (.ansi n) = some (.ansi n)) :
    List.Forall₂ (fun h e => h.1 = e.1 ∧ ∀ c : Cell, penOf T (c.setStyle (h.2 Style.new)) = e.2 (penOf T c))
      Style.helpers helperMeaning := by
  unfold Style.helpers helperMeaning
  repeat' apply List.Forall₂.cons
  all_goals first
    | exact List.Forall₂.nil
    | exact ⟨rfl, fun c => helper_modifier T _ c⟩
    | exact ⟨rfl, fun c => helper_fg T _ (by decide) (hT _ (by decide)) c⟩
    | exact ⟨rfl, fun c => helper_bg T _ (by decide) (hT _ (by decide)) c⟩

example : List.Forall₂ (fun h e => h.1 = e.1 ∧ ∀ c : Cell,
      penOf ⟨some, readHex⟩ (c.setStyle (h.2 Style.new)) = e.2 (penOf ⟨some, readHex⟩ c)) Style.helpers helperMeaning :=
  C89_helpers _ fun _ _ => rfl

/-- Specification: the value of a hexadecimal digit. -/
def hexValue (c : Char) : Option Nat :=
  if 48 ≤ c.toNat ∧ c.toNat ≤ 57 then some (c.toNat - 48)
  else if 97 ≤ c.toNat ∧ c.toNat ≤ 102 then some (c.toNat - 87)
  else if 65 ≤ c.toNat ∧ c.toNat ≤ 70 then some (c.toNat - 55)
  else none

/-- Specification: reading `#rrggbb`. -/
def readHex (s : String) : Option (Nat × Nat × Nat) :=
  match s.toList with
  | ['#', a, b, c, d, e, f] => do
    let a ← hexValue a
    let b ← hexValue b
    let c ← hexValue c
    let d ← hexValue d
    let e ← hexValue e
    let f ← hexValue f
    some (16 * a + b, 16 * c + d, 16 * e + f)
  | _ => none

theorem hexValue_hexDigit (n : Nat) (h : n < 16) : hexValue (Style.hexDigit n) = some n := by
  revert n
  decide

/-- **C89.** The string made for an RGB colour reads as the three bytes. -/
theorem C89_hex_round_trip (r g b : Fin 256) : readHex (Style.hexColor r g b) = some (r.val, g.val, b.val) := by
  have k : ∀ x : Fin 256, hexValue (Style.hexDigit ((x : Nat) / 16)) = some ((x : Nat) / 16) ∧
      hexValue (Style.hexDigit ((x : Nat) % 16)) = some ((x : Nat) % 16) := by
    intro x
    exact ⟨hexValue_hexDigit _ (by omega), hexValue_hexDigit _ (by omega)⟩
  unfold readHex Style.hexColor
  simp only [String.toList_ofList, (k r).1, (k r).2, (k g).1, (k g).2, (k b).1, (k b).2, Option.bind_eq_bind,
    Option.bind_some, Option.some.injEq, Prod.mk.injEq]
  omega

/-- **C89.** On a terminal with direct colours, `RGB` and `OnRGB` show exactly the colour asked for, as foreground
and as background. -/
theorem C89_rgb (T : Termenv) (hT : ∀ s, T.convert (.rgb s) = some (.rgb s))
    (hhex : ∀ s v, readHex s = some v → T.hex s = some v) (c : Cell) (r g b : Fin 256) :
    penOf T (c.setStyle (Style.new.rgb r g b)) = { penOf T c with fg := .rgb r g b } ∧
    penOf T (c.setStyle (Style.new.onRGB r g b)) = { penOf T c with bg := .rgb r g b } := by
  have h := hhex _ _ (C89_hex_round_trip r g b)
  constructor <;>
    simp [penOf, penOf', Cell.setStyle, Style.rgb, Style.onRGB, Style.withForeground, Style.withBackground, Style.new,
      hT, Color.shown, h, Modifier.difference, Modifier.union, Modifier.none, and_ones]

/-- A terminal with direct colours, and a chain in which a colour is named twice. -/
example : let T : Termenv := ⟨some, readHex⟩
    (∀ n < 16, T.convert (.ansi n) = some (.ansi n)) ∧ (∀ s, T.convert (.rgb s) = some (.rgb s)) ∧
    (∀ s v, readHex s = some v → T.hex s = some v) ∧
    Style.hexColor 255 10 171 = "#ff0aab" ∧
    lastFg [.fg (.ansi 1), .bg (.ansi 4), .add Modifier.bold, .fg (.ansi 2)] = some (.ansi 2) := by
  refine ⟨fun _ _ => rfl, fun _ => rfl, fun _ _ h => h, by decide, rfl⟩

end Bento
