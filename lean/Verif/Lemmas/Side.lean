import Verif.Spec.Side
import Verif.Model.Text
import Verif.Model.Block
import Verif.Model.Clear
import Verif.Model.Gauge
import Verif.Model.InputField
import Verif.Model.ListWidget
import Verif.Model.Paragraph
import Verif.Model.Popup
import Verif.Model.Scroll
import Verif.Model.Tabs
import Verif.Model.Throbber

/-! # Every drawing function treats each cell by itself -/

namespace Bento

namespace Beside

/-- Two buffers of the same window that agree on some cells. -/
def Alike (W : Rect) (Q : Position → Prop) (b c : Buffer) : Prop :=
  b.WF ∧ c.WF ∧ b.area = W ∧ c.area = W ∧ ∀ q, Q q → b.cellAt q = c.cellAt q

/-- The same with a further result that has to be equal. -/
def AlikeP {β : Type} (W : Rect) (Q : Position → Prop) (x y : Buffer × β) : Prop := Alike W Q x.1 y.1 ∧ x.2 = y.2

variable {W : Rect} {Q : Position → Prop}

theorem rel_bind {α β : Type} {R : α → α → Prop} {S : β → β → Prop} {a b : Option α} {f g : α → Option β}
    (h : Option.Rel R a b) (hf : ∀ x y, R x y → Option.Rel S (f x) (g y)) :
    Option.Rel S (a.bind f) (b.bind g) := by
  cases h with
  | none => exact .none
  | some h => exact hf _ _ h

theorem rel_map {α β : Type} {R : α → α → Prop} {S : β → β → Prop} {a b : Option α} {f g : α → β}
    (h : Option.Rel R a b) (hf : ∀ x y, R x y → S (f x) (g y)) : Option.Rel S (a.map f) (b.map g) := by
  cases h with
  | none => exact .none
  | some h => exact .some (hf _ _ h)

theorem rel_refl {α : Type} (a : Option α) : Option.Rel (fun x y => x = y) a a := by
  cases a with
  | none => exact .none
  | some a => exact .some rfl

theorem modify {b c : Buffer} (h : Alike W Q b c) (p : Position) (f : Cell → Cell) :
    Option.Rel (Alike W Q) (b.modifyCell p f) (c.modifyCell p f) := by
  obtain ⟨wb, wc, ab, ac, hq⟩ := h
  by_cases hp : W.contains p = true
  · obtain ⟨b', eb, ab', wb', cb⟩ := wb.modifyCell_some f (by rw [ab]; exact hp)
    obtain ⟨c', ec, ac', wc', cc⟩ := wc.modifyCell_some f (by rw [ac]; exact hp)
    rw [eb, ec]
    refine .some ⟨wb', wc', ab'.trans ab, ac'.trans ac, fun q h => ?_⟩
    rw [cb, cc, hq q h]
  · rw [Bool.not_eq_true] at hp
    rw [Buffer.modifyCell_none (by rw [ab]; exact hp), Buffer.modifyCell_none (by rw [ac]; exact hp)]
    exact .none

theorem fold {α : Type} {f : Buffer → α → Option Buffer}
    (hf : ∀ b c x, Alike W Q b c → Option.Rel (Alike W Q) (f b x) (f c x)) :
    ∀ (l : List α) {b c : Buffer}, Alike W Q b c → Option.Rel (Alike W Q) (l.foldlM f b) (l.foldlM f c)
  | [], _, _, h => .some h
  | x :: l, b, c, h => by
    rw [List.foldlM_cons, List.foldlM_cons]
    exact rel_bind (hf b c x h) fun _ _ h => fold hf l h

theorem setStyle {b c : Buffer} (h : Alike W Q b c) (area : Rect) (s : Style) :
    Option.Rel (Alike W Q) (b.setStyle area s) (c.setStyle area s) := by
  unfold Buffer.setStyle
  rw [h.2.2.1, h.2.2.2.1]
  exact fold (fun b c p h => modify h p _) _ h

theorem resetLoop (y : Int) : ∀ (n : Nat) (x : Int) {b c : Buffer}, Alike W Q b c →
    Option.Rel (Alike W Q) (Buffer.resetLoop y n x b) (Buffer.resetLoop y n x c)
  | 0, _, _, _, h => .some h
  | n + 1, x, _, _, h => rel_bind (modify h _ _) fun _ _ h => resetLoop y n (x + 1) h

theorem setStringLoop (y : Int) (s : Style) : ∀ (gs : List (String × Nat)) (x w : Int) {b c : Buffer},
    Alike W Q b c →
    Option.Rel (AlikeP W Q) (Buffer.setStringLoop y s gs x w b) (Buffer.setStringLoop y s gs x w c)
  | [], _, _, _, _, h => .some ⟨h, rfl⟩
  | (g, n) :: gs, x, w, b, c, h => by
    unfold Buffer.setStringLoop
    by_cases hw : w > 0
    · rw [if_pos hw, if_pos hw]
      exact rel_bind (modify h _ _) fun _ _ h => rel_bind (resetLoop y _ _ h) fun _ _ h =>
        setStringLoop y s gs _ _ h
    · rw [if_neg hw, if_neg hw]
      exact .some ⟨h, rfl⟩

theorem setStringN (u : Uniseg) {b c : Buffer} (h : Alike W Q b c) (x y : Int) (v : String) (m : Int) (s : Style) :
    Option.Rel (AlikeP W Q) (b.setStringN u x y v m s) (c.setStringN u x y v m s) := by
  unfold Buffer.setStringN
  rw [h.2.2.1, h.2.2.2.1]
  exact setStringLoop y s _ _ _ h

theorem setString (u : Uniseg) {b c : Buffer} (h : Alike W Q b c) (x y : Int) (v : String) (s : Style) :
    Option.Rel (Alike W Q) (b.setString u x y v s) (c.setString u x y v s) :=
  rel_map (setStringN u h x y v _ s) fun _ _ h => h.1

/-! ### Text -/

theorem hideLoop (y : Int) : ∀ (n : Nat) (x : Int) {b c : Buffer}, Alike W Q b c →
    Option.Rel (Alike W Q) (Span.hideLoop y n x b) (Span.hideLoop y n x c)
  | 0, _, _, _, h => .some h
  | n + 1, x, _, _, h => rel_bind (modify h _ _) fun _ _ h => hideLoop y n (x + 1) h

theorem putGrapheme (area : Rect) (first : Bool) (x y : Int) (g : StyledGrapheme) {b c : Buffer} (h : Alike W Q b c) :
    Option.Rel (Alike W Q) (Span.putGrapheme area first x y g b) (Span.putGrapheme area first x y g c) := by
  unfold Span.putGrapheme
  split
  · exact modify h _ _
  · split
    · exact modify h _ _
    · split <;> exact modify h _ _

theorem renderLoop (area : Rect) (y : Int) : ∀ (gs : List StyledGrapheme) (first : Bool) (x : Int) {b c : Buffer},
    Alike W Q b c →
    Option.Rel (Alike W Q) (Span.renderLoop area y gs first x b) (Span.renderLoop area y gs first x c)
  | [], _, _, _, _, h => .some h
  | g :: gs, first, x, b, c, h => by
    unfold Span.renderLoop
    by_cases hw : x + g.g.width > area.right
    · rw [if_pos hw, if_pos hw]; exact .some h
    · rw [if_neg hw, if_neg hw]
      exact rel_bind (putGrapheme area first x y g h) fun _ _ h => rel_bind (hideLoop y _ _ h) fun _ _ h =>
        renderLoop area y gs false _ h

theorem span (u : Uniseg) (s : Span) (area : Rect) {b c : Buffer} (h : Alike W Q b c) :
    Option.Rel (Alike W Q) (s.render u area b) (s.render u area c) := by
  unfold Span.render
  rw [h.2.2.1, h.2.2.2.1]
  dsimp only
  split
  · exact .some h
  · exact renderLoop _ _ _ _ _ h

theorem renderAll (u : Uniseg) : ∀ (l : List Span.After) (area : Rect) {b c : Buffer}, Alike W Q b c →
    Option.Rel (Alike W Q) (Span.renderAll u l area b) (Span.renderAll u l area c)
  | [], _, _, _, h => .some h
  | s :: l, area, b, c, h => by
    unfold Span.renderAll
    dsimp only
    split
    · exact .some h
    · exact rel_bind (span u _ _ h) fun _ _ h => renderAll u l _ h

theorem lineAligned (u : Uniseg) (l : Line) (area : Rect) (a : Alignment) {b c : Buffer} (h : Alike W Q b c) :
    Option.Rel (Alike W Q) (l.renderAligned u area a b) (l.renderAligned u area a c) := by
  unfold Line.renderAligned
  rw [h.2.2.1, h.2.2.2.1]
  dsimp only
  split
  · exact .some h
  · split
    · exact .some h
    · refine rel_bind (setStyle h _ _) fun _ _ h => ?_
      split
      · exact renderAll u _ _ h
      · exact renderAll u _ _ h

theorem line (u : Uniseg) (l : Line) (area : Rect) {b c : Buffer} (h : Alike W Q b c) :
    Option.Rel (Alike W Q) (l.render u area b) (l.render u area c) := lineAligned u l area .none h

theorem renderLines (u : Uniseg) (a : Alignment) : ∀ (ls : List Line) (rs : List Rect) {b c : Buffer},
    Alike W Q b c → Option.Rel (Alike W Q) (Text.renderLines u a ls rs b) (Text.renderLines u a ls rs c)
  | [], _, _, _, h => .some h
  | _ :: _, [], _, _, h => .some h
  | l :: ls, r :: rs, _, _, h => rel_bind (lineAligned u l r a h) fun _ _ h => renderLines u a ls rs h

theorem text (u : Uniseg) (t : Text) (area : Rect) {b c : Buffer} (h : Alike W Q b c) :
    Option.Rel (Alike W Q) (t.render u area b) (t.render u area c) := by
  unfold Text.render
  rw [h.2.2.1, h.2.2.2.1]
  exact rel_bind (setStyle h _ _) fun _ _ h => renderLines u _ _ _ h

/-! ### Blocks -/

theorem drawIf (k : Block) (s : Side) (v : String) (ps : List Position) {b c : Buffer} (h : Alike W Q b c) :
    Option.Rel (Alike W Q) (k.drawIf s v ps b) (k.drawIf s v ps c) := by
  unfold Block.drawIf
  split
  · exact fold (fun b c p h => modify h p _) _ h
  · exact .some h

theorem borders (k : Block) (area : Rect) {b c : Buffer} (h : Alike W Q b c) :
    Option.Rel (Alike W Q) (k.renderBorders area b) (k.renderBorders area c) :=
  rel_bind (drawIf k _ _ _ h) fun _ _ h => rel_bind (drawIf k _ _ _ h) fun _ _ h =>
  rel_bind (drawIf k _ _ _ h) fun _ _ h => rel_bind (drawIf k _ _ _ h) fun _ _ h =>
  rel_bind (drawIf k _ _ _ h) fun _ _ h => rel_bind (drawIf k _ _ _ h) fun _ _ h =>
  rel_bind (drawIf k _ _ _ h) fun _ _ h => drawIf k _ _ _ h

theorem title (u : Uniseg) (k : Block) (t : Title) (area : Rect) {b c : Buffer} (h : Alike W Q b c) :
    Option.Rel (Alike W Q) (k.drawTitle u t area b) (k.drawTitle u t area c) :=
  rel_bind (setStyle h _ _) fun _ _ h => line u _ _ h

theorem rightLoop (u : Uniseg) (k : Block) : ∀ (ts : List Title) (area : Rect) {b c : Buffer}, Alike W Q b c →
    Option.Rel (Alike W Q) (k.rightLoop u ts area b) (k.rightLoop u ts area c)
  | [], _, _, _, h => .some h
  | t :: ts, area, b, c, h => by
    unfold Block.rightLoop
    split
    · exact .some h
    · exact rel_bind (title u k t _ h) fun _ _ h => rightLoop u k ts _ h

theorem leftLoop (u : Uniseg) (k : Block) : ∀ (ts : List Title) (area : Rect) {b c : Buffer}, Alike W Q b c →
    Option.Rel (Alike W Q) (k.leftLoop u ts area b) (k.leftLoop u ts area c)
  | [], _, _, _, h => .some h
  | t :: ts, area, b, c, h => by
    unfold Block.leftLoop
    split
    · exact .some h
    · exact rel_bind (title u k t _ h) fun _ _ h => leftLoop u k ts _ h

theorem titlePosition (u : Uniseg) (k : Block) (p : TitlePosition) (area : Rect) {b c : Buffer} (h : Alike W Q b c) :
    Option.Rel (Alike W Q) (k.renderTitlePosition u p area b) (k.renderTitlePosition u p area c) :=
  rel_bind (rightLoop u k _ _ h) fun _ _ h => rel_bind (leftLoop u k _ _ h) fun _ _ h => leftLoop u k _ _ h

theorem block (u : Uniseg) (k : Block) (area : Rect) {b c : Buffer} (h : Alike W Q b c) :
    Option.Rel (Alike W Q) (k.render u area b) (k.render u area c) := by
  unfold Block.render
  dsimp only
  split
  · exact .some h
  · exact rel_bind (setStyle h _ _) fun _ _ h => rel_bind (borders k _ h) fun _ _ h =>
      rel_bind (titlePosition u k _ _ h) fun _ _ h => titlePosition u k _ _ h

/-! ### The widgets -/

theorem clear (area : Rect) {b c : Buffer} (h : Alike W Q b c) :
    Option.Rel (Alike W Q) (Bento.clear area b) (Bento.clear area c) := fold (fun _ _ p h => modify h p _) _ h

theorem fill (f : Fill) (area : Rect) {b c : Buffer} (h : Alike W Q b c) :
    Option.Rel (Alike W Q) (f.render area b) (f.render area c) := fold (fun _ _ p h => modify h p _) _ h

theorem gauge (rnd : ℚ → ℚ) (u : Uniseg) (g : Gauge) (area : Rect) {b c : Buffer} (h : Alike W Q b c) :
    Option.Rel (Alike W Q) (g.render rnd u area b) (g.render rnd u area c) := by
  unfold Gauge.render Gauge.renderGauge
  refine rel_bind (setStyle h _ _) fun _ _ h => ?_
  split
  · exact .some h
  · exact rel_bind (setStyle h _ _) fun _ _ h => rel_bind (fold (fun _ _ p h => modify h p.1 _) _ h) fun _ _ h =>
      rel_bind (setStringN u h _ _ _ _ _) fun _ _ h => .some h.1

theorem rowLoop (y : Int) : ∀ (gs : List StyledGrapheme) (x : Int) {b c : Buffer}, Alike W Q b c →
    Option.Rel (Alike W Q) (Paragraph.rowLoop y gs x b) (Paragraph.rowLoop y gs x c)
  | [], _, _, _, h => .some h
  | g :: gs, x, b, c, h => by
    unfold Paragraph.rowLoop
    split
    · exact rowLoop y gs x h
    · exact rel_bind (modify h _ _) fun _ _ h => rowLoop y gs _ h

theorem row (s : Int) (area : Rect) (y : Int) (l : WrappedLine) {b c : Buffer} (h : Alike W Q b c) :
    Option.Rel (Alike W Q) (Paragraph.row s area y l b) (Paragraph.row s area y l c) := by
  unfold Paragraph.row
  split
  · cases Paragraph.lineOffset l.width area.width l.alignment with
    | none => exact .none
    | some x => exact rowLoop _ _ _ h
  · exact .some h

theorem textLoop {S : Type} (next : S → Option (WrappedLine × S)) (sy : Int) (area : Rect) :
    ∀ (n : Nat) (y : Int) (s : S) {b c : Buffer}, Alike W Q b c →
      Option.Rel (Alike W Q) (Paragraph.textLoop next sy area n y s b) (Paragraph.textLoop next sy area n y s c)
  | 0, _, _, _, _, h => .some h
  | n + 1, y, s, b, c, h => by
    unfold Paragraph.textLoop
    cases next s with
    | none => exact .some h
    | some r =>
      refine rel_bind (row sy area y r.1 h) fun _ _ h => ?_
      split
      · exact .some h
      · exact textLoop next sy area n _ _ h

theorem paragraphIn (u : Uniseg) (p : Paragraph) (area : Rect) {b c : Buffer} (h : Alike W Q b c) :
    Option.Rel (Alike W Q) (p.renderIn u area b) (p.renderIn u area c) := by
  unfold Paragraph.renderIn
  split
  · exact .some h
  · refine rel_bind (setStyle h _ _) fun _ _ h => ?_
    cases p.wrap with
    | none => exact textLoop _ _ _ _ _ _ h
    | some t => exact textLoop _ _ _ _ _ _ h

theorem paragraph (u : Uniseg) (p : Paragraph) (area : Rect) {b c : Buffer} (h : Alike W Q b c) :
    Option.Rel (Alike W Q) (p.render u area b) (p.render u area c) := by
  unfold Paragraph.render
  refine rel_bind (setStyle h _ _) fun _ _ h => ?_
  cases p.block with
  | none => exact paragraphIn u p _ h
  | some k => exact rel_bind (block u k _ h) fun _ _ h => paragraphIn u p _ h

theorem symbolLoop (u : Uniseg) (l : ListWidget) (sel : Bool) (x y w : Int) (s : Style) :
    ∀ (n j : Nat) {b c : Buffer}, Alike W Q b c →
      Option.Rel (Alike W Q) (l.symbolLoop u sel x y w s n j b) (l.symbolLoop u sel x y w s n j c)
  | 0, _, _, _, h => .some h
  | n + 1, j, _, _, h => rel_bind (setStringN u h _ _ _ _ _) fun _ _ h => symbolLoop u l sel x y w s n (j + 1) h.1

theorem item (u : Uniseg) (l : ListWidget) (spacing sel : Bool) (r : Rect) (t : Text) {b c : Buffer}
    (h : Alike W Q b c) :
    Option.Rel (Alike W Q) (l.renderItem u spacing sel r t b) (l.renderItem u spacing sel r t c) := by
  have hsel : ∀ b c, Alike W Q b c → Option.Rel (Alike W Q) (if sel then b.setStyle r l.highlightStyle else some b)
      (if sel then c.setStyle r l.highlightStyle else some c) := by
    intro b c h
    split
    · exact setStyle h _ _
    · exact .some h
  unfold ListWidget.renderItem
  refine rel_bind (setStyle h _ _) fun _ _ h => rel_bind (text u _ _ h) fun _ _ h => ?_
  cases spacing with
  | false => exact hsel _ _ h
  | true => exact rel_bind (symbolLoop u l _ _ _ _ _ _ _ h) fun _ _ h => hsel _ _ h

theorem itemLoop (u : Uniseg) (l : ListWidget) (spacing : Bool) (sel : Option Int) (area : Rect) :
    ∀ (ts : List Text) (i k : Int) {b c : Buffer}, Alike W Q b c →
      Option.Rel (Alike W Q) (l.itemLoop u spacing sel area ts i k b) (l.itemLoop u spacing sel area ts i k c)
  | [], _, _, _, _, h => .some h
  | t :: ts, i, k, _, _, h => rel_bind (item u l spacing _ _ t h) fun _ _ h => itemLoop u l spacing sel area ts _ _ h

theorem items (u : Uniseg) (l : ListWidget) (area : Rect) (s : ListWidget.State) {b c : Buffer} (h : Alike W Q b c) :
    Option.Rel (AlikeP W Q) (l.renderItems u area b s) (l.renderItems u area c s) := by
  unfold ListWidget.renderItems
  split
  · exact .some ⟨h, rfl⟩
  · dsimp only
    refine rel_bind (rel_refl _) fun r r' e => ?_
    subst e
    obtain ⟨f, l⟩ := r
    dsimp only
    split
    · exact .none
    · exact rel_bind (itemLoop u _ _ _ _ _ _ _ h) fun _ _ h => .some ⟨h, rfl⟩

theorem list (u : Uniseg) (l : ListWidget) (area : Rect) (s : ListWidget.State) {b c : Buffer} (h : Alike W Q b c) :
    Option.Rel (AlikeP W Q) (l.render u area b s) (l.render u area c s) := by
  unfold ListWidget.render
  refine rel_bind (setStyle h _ _) fun _ _ h => ?_
  cases l.block with
  | none => exact items u l _ s h
  | some k => exact rel_bind (block u k _ h) fun _ _ h => items u l _ s h

theorem printLoop (u : Uniseg) (l : Line) (y : Int) : ∀ (ss : List Span) (x w : Int) {b c : Buffer}, Alike W Q b c →
    Option.Rel (AlikeP W Q) (l.printLoop u y ss x w b) (l.printLoop u y ss x w c)
  | [], _, _, _, _, h => .some ⟨h, rfl⟩
  | s :: ss, x, w, b, c, h => by
    unfold Line.printLoop
    split
    · exact .some ⟨h, rfl⟩
    · refine rel_bind (setStringN u h _ _ _ _ _) fun r r' h => ?_
      obtain ⟨b', x'⟩ := r
      obtain ⟨c', x''⟩ := r'
      obtain ⟨h, e⟩ := h
      cases e
      exact printLoop u l y ss _ _ h

theorem highlight (t : Tabs) (i : Nat) (x x' y : Int) {b c : Buffer} (h : Alike W Q b c) :
    Option.Rel (Alike W Q) (t.highlight i x x' y b) (t.highlight i x x' y c) := by
  unfold Tabs.highlight
  split
  · exact setStyle h _ _
  · exact .some h

theorem tabsLoop (u : Uniseg) (t : Tabs) (area : Rect) : ∀ (ls : List Line) (i : Nat) (x : Int) {b c : Buffer},
    Alike W Q b c → Option.Rel (Alike W Q) (t.loop u area ls i x b) (t.loop u area ls i x c)
  | [], _, _, _, _, h => .some h
  | l :: ls, i, x, b, c, h => by
    unfold Tabs.loop
    split
    · exact .some h
    refine rel_bind (printLoop u _ _ _ _ _ h) fun r r' h => ?_
    obtain ⟨_, x1⟩ := r
    obtain ⟨_, _⟩ := r'
    obtain ⟨h, e⟩ := h
    cases e
    dsimp only
    split
    · exact .some h
    refine rel_bind (printLoop u _ _ _ _ _ h) fun r r' h => ?_
    obtain ⟨_, x2⟩ := r
    obtain ⟨_, _⟩ := r'
    obtain ⟨h, e⟩ := h
    cases e
    dsimp only
    refine rel_bind (highlight t _ _ _ _ h) fun _ _ h => ?_
    split
    · exact .some h
    refine rel_bind (printLoop u _ _ _ _ _ h) fun r r' h => ?_
    obtain ⟨_, x3⟩ := r
    obtain ⟨_, _⟩ := r'
    obtain ⟨h, e⟩ := h
    cases e
    dsimp only
    split
    · exact .some h
    refine rel_bind (setStringN u h _ _ _ _ _) fun r r' h => ?_
    obtain ⟨_, x4⟩ := r
    obtain ⟨_, _⟩ := r'
    obtain ⟨h, e⟩ := h
    cases e
    exact tabsLoop u t area ls _ _ h

theorem tabs (u : Uniseg) (t : Tabs) (area : Rect) {b c : Buffer} (h : Alike W Q b c) :
    Option.Rel (Alike W Q) (t.render u area b) (t.render u area c) := by
  have hin : ∀ area b c, Alike W Q b c → Option.Rel (Alike W Q) (t.renderTabs u area b) (t.renderTabs u area c) := by
    intro area b c h
    unfold Tabs.renderTabs
    split
    · exact .some h
    · exact tabsLoop u t _ _ _ _ h
  unfold Tabs.render
  refine rel_bind (setStyle h _ _) fun _ _ h => ?_
  cases t.block with
  | none => exact hin _ _ _ h
  | some k => exact rel_bind (block u k _ h) fun _ _ h => hin _ _ _ h

theorem drawLoop (u : Uniseg) : ∀ (l : List (Rect × Option (String × Style))) {b c : Buffer}, Alike W Q b c →
    Option.Rel (Alike W Q) (Scroll.drawLoop u l b) (Scroll.drawLoop u l c)
  | [], _, _, h => .some h
  | (_, none) :: l, _, _, h => drawLoop u l h
  | (_, some _) :: l, _, _, h => rel_bind (setString u h _ _ _ _) fun _ _ h => drawLoop u l h

theorem scroll (rd : Int → Int → Int) (u : Uniseg) (s : Scroll) (area : Rect) (st : Scroll.State) {b c : Buffer}
    (h : Alike W Q b c) : Option.Rel (Alike W Q) (s.render rd u area b st) (s.render rd u area c st) := by
  unfold Scroll.render
  split
  · exact .some h
  · cases s.scrollbarArea area with
    | none => exact .some h
    | some bar => exact drawLoop u _ h

theorem popup (u : Uniseg) (p : Popup) (area : Rect) {b c : Buffer} (h : Alike W Q b c) :
    Option.Rel (Alike W Q) (p.draw u area b) (p.draw u area c) := by
  unfold Popup.draw
  refine rel_bind (clear _ h) fun _ _ h => rel_bind (setStyle h _ _) fun _ _ h => ?_
  cases p.block with
  | none => exact .some h
  | some k => exact block u k _ h

theorem input (ω : Nat → Nat) (fuel : Nat) (u : Uniseg) (i : InputField.Widget) (area : Rect) (s : InputField.State)
    {b c : Buffer} (h : Alike W Q b c) :
    Option.Rel (AlikeP W Q) (i.render ω fuel u area b s) (i.render ω fuel u area c s) := by
  have hrow : ∀ row b c, Alike W Q b c → Option.Rel (AlikeP W Q) (i.renderRow u row b s) (i.renderRow u row c s) := by
    intro row b c h
    unfold InputField.Widget.renderRow
    refine rel_bind (rel_refl _) fun r r' e => ?_
    subst e
    obtain ⟨l, s'⟩ := r
    exact rel_bind (line u l row h) fun _ _ h => .some ⟨h, rfl⟩
  unfold InputField.Widget.render
  refine rel_bind (setStyle h _ _) fun b c h => ?_
  have hrest : ∀ area b c, Alike W Q b c → Option.Rel (AlikeP W Q)
      (match Layout.splitWithSpacers ω fuel i.rowLayout area with
        | .ok [row] _ => i.renderRow u row b s
        | _ => none)
      (match Layout.splitWithSpacers ω fuel i.rowLayout area with
        | .ok [row] _ => i.renderRow u row c s
        | _ => none) := by
    intro area b c h
    split
    · exact hrow _ _ _ h
    · exact .none
  cases i.block with
  | none => exact hrest _ _ _ h
  | some k =>
    have := block u k area h
    dsimp only
    generalize k.render u area b = x, k.render u area c = y at this
    cases this with
    | none => exact .none
    | some h => exact hrest _ _ _ h

end Beside

end Bento
