import Verif.Model.Clear
import Verif.Props.Paragraph
import Verif.Spec.Block
import Verif.Spec.Cells
import Verif.Spec.Gauge
import Verif.Spec.Palette
import Verif.Spec.Scroll
import Verif.Spec.Tabs

/-!
# What every cell of a page is

For text whose symbols take one column each.
-/

namespace Bento

/-- The columns of one title: where they begin and how many there are. -/
structure TitlePlace where
  start : Nat
  columns : Nat
  line : Line

/-- Where the titles of a group stand that is drawn from column `first` on if there are `room` columns: each behind the ones
before it and a free column, and only as far as there are columns. -/
def forwardPlaces (u : Uniseg) (first room : Nat) (ts : List Title) : List TitlePlace :=
  ts.mapIdx fun j t =>
    ⟨first + titlesWidth u (ts.take j), min (t.line.clusters u).length (room - titlesWidth u (ts.take j)), t.line⟩

/-- Where the titles of a group stand that is drawn up to column `room`, the last one first. -/
def backwardPlaces (u : Uniseg) (room : Nat) (ts : List Title) : List TitlePlace :=
  ts.reverse.mapIdx fun j t =>
    let rest := room - titlesWidth u (ts.reverse.take j)
    ⟨rest - (t.line.clusters u).length, min (t.line.clusters u).length rest, t.line⟩

/-- Where the titles of a row stand, counted from the left border, if there are `room` columns between the borders, in the
order in which they are drawn: where two of them meet the later one is seen. -/
def titlePlaces (u : Uniseg) (b : Block) (room : Nat) (p : TitlePosition) : List TitlePlace :=
  let group := titlesOf b.titlesPosition b.titlesAlignment b.titles p
  backwardPlaces u room (group .right) ++
    forwardPlaces u (titlesStart u .center room (group .center)) room (group .center) ++
    forwardPlaces u 0 room (group .left)

/-- What column `k` of a row of titles becomes: the style for titles and then the line. -/
def TitlePlace.cellIn (u : Uniseg) (style : Style) (k : Nat) (c : Cell) (t : TitlePlace) : Cell :=
  if t.start ≤ k ∧ k < t.start + t.columns then t.line.cellIn u .none t.columns (k - t.start) (c.setStyle style) else c

/-- What a cell becomes when a block is drawn to an area: the style of the block, the border and then the titles. -/
def Block.cellIn (u : Uniseg) (b : Block) (area : Rect) (q : Position) (c : Cell) : Cell :=
  if area.contains q = true then
    let left : Bool := b.borders &&& 8 ≠ 0
    let right : Bool := b.borders &&& 2 ≠ 0
    let c := (c.setStyle b.style).bordered b.borderStyle (b.borderSet.symbol
      (left && q.x = area.x) (b.borders &&& 1 ≠ 0 && q.y = area.y)
      (right && q.x = area.x + area.width - 1) (b.borders &&& 4 ≠ 0 && q.y = area.y + area.height - 1))
    let first := area.x + (if left then 1 else 0)
    let room := (area.width - (if left then 1 else 0) - (if right then 1 else 0)).toNat
    let row (p : TitlePosition) (c : Cell) :=
      if q.y = p.row area ∧ first ≤ q.x then
        (titlePlaces u b room p).foldl (TitlePlace.cellIn u b.titlesStyle (q.x - first).toNat) c
      else c
    row .bottom (row .top c)
  else c

/-- The part of an area that is left for the content of a widget with or without a block. -/
def contentOf (block : Option Block) (area : Rect) : Rect := (block.map fun k => k.inner area).getD area

/-- What a cell becomes when a widget sets the style of its area and draws its block, if it has one. -/
def groundOf (u : Uniseg) (style : Style) (block : Option Block) (area : Rect) (q : Position) (c : Cell) : Cell :=
  let c := if area.contains q = true then c.setStyle style else c
  match block with
  | some k => k.cellIn u area q c
  | none => c

/-- What a cell becomes when tabs are drawn: style and block, and then the strip in the first row of the content. -/
def Tabs.cellIn (u : Uniseg) (t : Tabs) (area : Rect) (q : Position) (c : Cell) : Cell :=
  let c := groundOf u t.style t.block area q c
  let inner := contentOf t.block area
  if inner.contains q = true ∧ q.y = inner.y then
    match (t.strip u)[(q.x - inner.x).toNat]? with
    | some f => f c
    | none => c
  else c

/-- What a cell becomes when a list is drawn of which `count` items from index `first` on are seen: style and block, and then the
item in whose rows the cell lies. -/
def ListWidget.cellIn (u : Uniseg) (l : ListWidget) (s : ListWidget.State) (first count : Nat) (area : Rect) (q : Position)
    (c : Cell) : Cell :=
  let c := groundOf u l.style l.block area q c
  let inner := contentOf l.block area
  let items := (l.items.drop first).take count
  let rows (k : Nat) : Option (Nat × Text) := (items[k]?).bind fun t =>
    if (ListWidget.rowsOf l inner items k t).contains q = true then some (k, t) else none
  match (List.range items.length).findSome? rows with
  | some (k, t) => l.itemCell u (l.highlightSpacing.shouldAdd s.selected.isSome)
      (s.selected.map (fun i => min i ((l.items.length : Int) - 1)) == some ((first + k : Nat) : Int))
      (ListWidget.rowsOf l inner items k t) t q c
  | none => c

/-- What a cell becomes when a paragraph is drawn whose text has the given rows: style and block, and then, in the style of the
paragraph once more, the rows from the one that the scroll offset asks for. -/
def Paragraph.cellIn (u : Uniseg) (p : Paragraph) (rows : List WrappedLine) (area : Rect) (q : Position) (c : Cell) : Cell :=
  let c := groundOf u p.style p.block area q c
  let inner := contentOf p.block area
  if inner.contains q = true then (c.setStyle p.style).showing (rowsShown rows p.scroll.y inner q) else c

/-- The strip in which a scrollbar is drawn: the horizontal ones are on the other side than their names say (C45). -/
def Scroll.drawnStrip (o : Scroll.Orientation) (area : Rect) : Rect :=
  match o with
  | .horizontalTop => Scroll.Orientation.strip .horizontalBottom area
  | .horizontalBottom => Scroll.Orientation.strip .horizontalTop area
  | o => o.strip area

/-- What a cell becomes when a scrollbar is drawn: in its strip arrow head, track, thumb, track and arrow head. -/
def Scroll.cellIn (rd : Int → Int → Int) (u : Uniseg) (s : Scroll) (state : Scroll.State) (area : Rect) (q : Position) (c : Cell) :
    Cell :=
  let bar := drawnStrip s.orientation area
  let (start, thumb, rest) := s.partLens rd u bar state
  if bar.contains q = true then
    match part s start.toNat thumb.toNat rest.toNat
        (if s.orientation.isVertical then q.y - bar.y else q.x - bar.x).toNat with
    | some (symbol, style) => c.put symbol style
    | none => c
  else c

/-- What a cell becomes when a popup is drawn that has its place in `r`: it is emptied and gets the popup's style and block. -/
def Popup.cellIn (u : Uniseg) (p : Popup) (r : Rect) (q : Position) (c : Cell) : Cell :=
  if r.contains q = true then
    let c := Cell.setStyle p.style ⟨" ", .reset, .reset, 0, false⟩
    match p.block with
    | some k => k.cellIn u r q c
    | none => c
  else c

/-- What a cell becomes when a text field is drawn that shows the line in the first row of `row`. -/
def InputField.Widget.cellIn (u : Uniseg) (i : InputField.Widget) (row : Rect) (line : Line) (area : Rect) (q : Position) (c : Cell) :
    Cell :=
  let c := groundOf u i.style i.block area q c
  if row.contains q = true ∧ q.y = row.y then line.cellIn u .none row.width.toNat (q.x - row.x).toNat c else c

/-- One thing drawn to an area. What a widget finds out by itself is given to the layer too, and `Layer.Fits` says that this is what
it finds out: the items in the window of a list, the rows of a paragraph's text, the places of popups, throbbers and text fields,
the frame of a throbber and the line that a text field shows. -/
inductive Layer
  | text (t : Text)
  | block (b : Block)
  | tabs (t : Tabs)
  | gauge (g : Gauge)
  | list (l : ListWidget) (s : ListWidget.State) (first count : Nat)
  | fill (f : Fill)
  | clear
  | paragraph (p : Paragraph) (rows : List WrappedLine)
  | scrollbar (rd : Int → Int → Int) (s : Scroll) (state : Scroll.State)
  | popup (ω ω' : Nat → Nat) (fuel : Nat) (p : Popup) (r : Rect)
  | throbber (ω ω' : Nat → Nat) (fuel : Nat) (t : Throbber) (s : Throbber.State) (frame : List Char) (r : Rect)
  | field (ω : Nat → Nat) (fuel : Nat) (i : InputField.Widget) (s : InputField.State) (row : Rect) (line : Line)

/-- The function of the API for each of them. -/
def Layer.draw (rnd : ℚ → ℚ) (u : Uniseg) (area : Rect) : Layer → Buffer → Option Buffer
  | .text t => t.render u area
  | .block b => b.render u area
  | .tabs t => t.render u area
  | .gauge g => g.render rnd u area
  | .list l s _ _ => fun b => (l.render u area b s).map Prod.fst
  | .fill f => f.render area
  | .clear => Bento.clear area
  | .paragraph p _ => p.render u area
  | .scrollbar rd s state => fun b => s.render rd u area b state
  | .popup ω ω' fuel p _ => fun b => (p.render ω ω' fuel u area b).value
  | .throbber ω ω' fuel t s _ _ => fun b => (t.render ω ω' fuel u area b s).value
  | .field ω fuel i s _ _ => fun b => (i.render ω fuel u area b s).map Prod.fst

/-- What it makes of a cell. -/
def Layer.cellIn (rnd : ℚ → ℚ) (u : Uniseg) (area : Rect) (q : Position) (c : Cell) : Layer → Cell
  | .text t => t.cellIn u area q c
  | .block b => b.cellIn u area q c
  | .tabs t => t.cellIn u area q c
  | .gauge g => if area.contains q = true then
      Gauge.gaugeCell g (u.graphemes (g.shownLabel rnd).content) (g.shownLabel rnd).style area
        (Layout.roundHalfAway (rnd (area.width * g.ratio))) none q c else c
  | .list l s first count => l.cellIn u s first count area q c
  | .fill f => if area.contains q = true then Cell.setStyle f.style ⟨f.symbol, .reset, .reset, 0, false⟩ else c
  | .clear => if area.contains q = true then ⟨" ", .reset, .reset, 0, false⟩ else c
  | .paragraph p rows => p.cellIn u rows area q c
  | .scrollbar rd s state => s.cellIn rd u state area q c
  | .popup _ _ _ p r => p.cellIn u r q c
  | .throbber _ _ _ t _ frame r => ({ newTextStr frame with style := t.style } : Text).cellIn u r q c
  | .field _ _ i _ row line => i.cellIn u row line area q c

/-- A block whose titles are single-width text and that has no negative padding, in an area with two columns and rows, or with
one and the same symbols on both sides. -/
structure Block.Fits (u : Uniseg) (b : Block) (area : Rect) : Prop where
  titles : ∀ t ∈ b.titles, t.line.NarrowText u
  padding : 0 ≤ b.padding.left ∧ 0 ≤ b.padding.right ∧ 0 ≤ b.padding.top ∧ 0 ≤ b.padding.bottom
  width : 2 ≤ area.width ∨ area.width = 0 ∨ area.width = 1 ∧ b.borderSet.verticalLeft = b.borderSet.verticalRight
  height : 2 ≤ area.height ∨ area.height = 0 ∨
    area.height = 1 ∧ b.borderSet.horizontalTop = b.borderSet.horizontalBottom

/-- All symbols take one column, and areas are large enough for frames. -/
def Layer.Fits (rnd : ℚ → ℚ) (u : Uniseg) (area : Rect) : Layer → Prop
  | .text t => ∀ l ∈ t.lines, l.NarrowText u
  | .block b => b.Fits u area
  | .tabs t => (∀ k ∈ t.block, k.Fits u area) ∧
      ∀ s ∈ t.divider :: t.paddingLeft.spans ++ t.paddingRight.spans ++ t.titles.flatMap Line.spans,
        ∀ g ∈ u.graphemes s.content, u.width g = 1
  | .gauge g => 0 < area.width ∧ area.width ≤ 2 ^ 53 ∧ 0 < area.height ∧ g.useUnicode = false ∧ 0 ≤ g.ratio ∧ g.ratio ≤ 1 ∧
      ∀ v ∈ u.graphemes (g.shownLabel rnd).content, u.width v = 1
  | .list l s first count => (∀ k ∈ l.block, k.Fits u area) ∧ (∀ c ∈ u.graphemes l.highlightSymbol, u.width c = 1) ∧
      l.items ≠ [] ∧ (∀ t ∈ l.items, ∀ line ∈ t.lines, line.NarrowText u) ∧ 0 ≤ l.scrollPadding ∧
      0 < (contentOf l.block area).width ∧ 0 < (contentOf l.block area).height ∧
      (0 ≤ s.offset ∧ ∀ i ∈ s.selected, 0 ≤ i) ∧
      ListWidget.getItemsBounds (l.items.map fun t => t.lines.length) l.scrollPadding
        (s.selected.map fun i => min i ((l.items.length : Int) - 1)) s.offset (contentOf l.block area).height =
          some ((first : Int), ((first + count : Nat) : Int))
  | .fill _ => True
  | .clear => True
  | .paragraph p rows => (∀ k ∈ p.block, k.Fits u area) ∧ ((contentOf p.block area).isEmpty = true ∨
      0 < (contentOf p.block area).height + p.scroll.y ∧ p.Rows u (contentOf p.block area).width rows ∧
      ∀ l ∈ rows, Paintable (contentOf p.block area).width l)
  | .scrollbar _ s state => 1 ≤ area.width ∧ 1 ≤ area.height ∧ state.contentLen ≠ 0 ∧ 1 ≤ s.trackLen u area ∧
      (∃ v ∈ s.beginSymbol, Scroll.OneCell u v) ∧ (∃ v ∈ s.endSymbol, Scroll.OneCell u v) ∧ Scroll.OneCell u s.thumbSymbol ∧
      ∀ v ∈ s.trackSymbol, Scroll.OneCell u v
  | .popup ω ω' fuel p r => p.place ω ω' fuel area = .ok r ∧
      (0 ≤ p.padding.top ∧ 0 ≤ p.padding.right ∧ 0 ≤ p.padding.bottom ∧ 0 ≤ p.padding.left) ∧ ∀ k ∈ p.block, k.Fits u r
  | .throbber ω ω' fuel t s frame r => Throbber.frameOf t.set s.frame = some frame ∧
      (0 ≤ t.padding.top ∧ 0 ≤ t.padding.right ∧ 0 ≤ t.padding.bottom ∧ 0 ≤ t.padding.left) ∧
      (⟨none, t.horizontal, t.vertical, t.style, .len (((newLinesStr frame).map (Line.width u)).foldl max 0 : Nat),
        .len ((newLinesStr frame).length : Nat), none, t.padding⟩ : Popup).place ω ω' fuel area = .ok r ∧
      ∀ l ∈ newLinesStr frame, l.NarrowText u
  | .field ω fuel i s row line => (∀ k ∈ i.block, k.Fits u area) ∧ 0 < (contentOf i.block area).width ∧
      0 < (contentOf i.block area).height ∧
      (∃ spacers, Layout.splitWithSpacers ω fuel i.rowLayout (contentOf i.block area) = .ok [row] spacers) ∧
      (i.line u row.width s).map Prod.fst = some line ∧ line.NarrowText u

/-- It is made of symbols from `S` and styles from `St`. -/
def Layer.MadeOf (rnd : ℚ → ℚ) (u : Uniseg) (S : String → Prop) (St : Style → Prop) : Layer → Prop
  | .text t => t.MadeOf u S St
  | .block b => b.MadeOf u S St
  | .tabs t => t.MadeOf u S St
  | .gauge g => g.MadeOf rnd u S St
  | .list l _ _ _ => l.MadeOf u S St
  | .fill f => S f.symbol ∧ St f.style
  | .clear => True
  | .paragraph p _ => p.MadeOf u S St
  | .scrollbar _ s _ => s.MadeOf u S St
  | .popup _ _ _ p _ => p.MadeOf u S St
  | .throbber _ _ _ t _ _ _ => t.MadeOf u S St
  | .field _ _ i s _ _ => i.MadeOf u S St ∧ ∀ g ∈ s.graphemes, S g.symbol

/-- A page: things drawn one after the other, each to its area. -/
abbrev Page := List (Rect × Layer)

/-- Drawing a page. -/
def Page.draw (rnd : ℚ → ℚ) (u : Uniseg) (page : Page) (b : Buffer) : Option Buffer :=
  page.foldlM (fun b p => p.2.draw rnd u p.1 b) b

/-- What it makes of a cell. -/
def Page.cellIn (rnd : ℚ → ℚ) (u : Uniseg) (page : Page) (q : Position) (c : Cell) : Cell :=
  page.foldl (fun c p => p.2.cellIn rnd u p.1 q c) c

end Bento
