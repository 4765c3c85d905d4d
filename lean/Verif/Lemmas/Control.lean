import Verif.Spec.Control
import Verif.Model.Paragraph
import Verif.Model.ListWidget
import Verif.Model.InputField
import Verif.Model.Throbber
import Verif.Model.Popup
import Verif.Model.Tabs
import Verif.Model.Gauge
import Verif.Model.Scroll
import Verif.Model.Clear
import Verif.Model.Terminal

/-!
# Drawing operations that put no control characters on the screen
-/

namespace Bento

theorem isControlRune_iff (c : Char) : isControlRune c = true ↔ Control c := by
  unfold isControlRune Control
  simp only [Bool.or_eq_true, Bool.and_eq_true, decide_eq_true_eq, Char.toNat]
  omega

theorem harmless_of_any {s : String} (h : s.toList.any isControlRune = false) : Harmless s := by
  intro c hc hC
  have := List.any_eq_false.1 h c hc
  exact this ((isControlRune_iff c).2 hC)

theorem harmless_append {s t : String} (hs : Harmless s) (ht : Harmless t) : Harmless (s ++ t) := by
  intro c hc
  rw [String.toList_append, List.mem_append] at hc
  exact hc.elim (hs c) (ht c)

theorem harmless_space : Harmless " " := by decide

theorem harmless_empty : Harmless "" := by decide

theorem harmless_ofList {l : List Char} (h : ∀ c ∈ l, ¬ Control c) : Harmless (String.ofList l) := by
  intro c hc
  rw [String.toList_ofList] at hc
  exact h c hc

theorem harmless_foldl {l : List String} {acc : String} (ha : Harmless acc) (h : ∀ s ∈ l, Harmless s) :
    Harmless (l.foldl (· ++ ·) acc) := by
  induction l generalizing acc with
  | nil => exact ha
  | cons s l ih =>
    exact ih (harmless_append ha (h s (List.mem_cons_self ..))) fun t ht => h t (List.mem_cons_of_mem _ ht)

theorem harmless_join {l : List String} (h : ∀ s ∈ l, Harmless s) : Harmless (String.join l) :=
  harmless_foldl harmless_empty h

theorem mem_foldl_of_mem {l : List String} {acc s : String} {c : Char}
    (h : c ∈ acc.toList ∨ (s ∈ l ∧ c ∈ s.toList)) : c ∈ (l.foldl (· ++ ·) acc).toList := by
  induction l generalizing acc with
  | nil =>
    rcases h with h | h
    · exact h
    · cases h.1
  | cons t l ih =>
    apply ih
    rw [String.toList_append, List.mem_append]
    rcases h with h | ⟨h, h'⟩
    · exact Or.inl (Or.inl h)
    · rcases List.mem_cons.1 h with rfl | h
      · exact Or.inl (Or.inr h')
      · exact Or.inr ⟨h, h'⟩

/-- The clusters of a harmless text are harmless. -/
theorem harmless_cluster {u : Uniseg} (hu : u.Lawful) {s c : String} (hs : Harmless s) (hc : c ∈ u.graphemes s) :
    Harmless c := by
  intro d hd
  apply hs d
  rw [← hu.join s]
  exact mem_foldl_of_mem (Or.inr ⟨hc, hd⟩)

namespace DrawsHarmless

theorem pure : DrawsHarmless some := by
  intro b b' h e; cases e; exact h

theorem bind {f g : Buffer → Option Buffer} (hf : DrawsHarmless f) (hg : DrawsHarmless g) :
    DrawsHarmless fun b => (f b).bind g := by
  intro b b' h e
  cases e1 : f b with
  | none => simp [e1] at e
  | some b1 => simp only [e1, Option.bind_some] at e; exact hg b1 b' (hf b b1 h e1) e

theorem modifyCell {p : Position} {f : Cell → Cell} (hf : ∀ c, Harmless c.symbol → Harmless (f c).symbol) :
    DrawsHarmless fun b => b.modifyCell p f := by
  intro b b' h e
  simp only [Buffer.modifyCell] at e
  cases ei : b.indexOf p with
  | none => simp [ei] at e
  | some i =>
    simp only [ei, Option.bind_eq_bind, Option.bind_some] at e
    split at e
    · cases e
      intro c hc
      obtain ⟨k, hk⟩ := List.mem_iff_getElem?.1 hc
      rw [List.getElem?_modify] at hk
      cases ek : b.content[k]? with
      | none => simp [ek] at hk
      | some d =>
        rw [ek] at hk
        have hd : d ∈ b.content := List.mem_of_getElem? ek
        simp only [Option.map_eq_map, Option.map_some, Option.some.injEq] at hk
        by_cases hik : i.toNat = k
        · rw [if_pos hik] at hk; subst hk; exact hf d (h d hd)
        · rw [if_neg hik] at hk; subst hk; exact h _ hd
    · cases e

theorem foldlM {α : Type} {f : Buffer → α → Option Buffer} (l : List α) (hf : ∀ a ∈ l, DrawsHarmless fun b => f b a) :
    DrawsHarmless fun b => l.foldlM f b := by
  induction l with
  | nil => exact pure
  | cons a l ih =>
    have := bind (hf a (List.mem_cons_self ..)) (ih fun x hx => hf x (List.mem_cons_of_mem _ hx))
    intro b b' h e
    exact this b b' h (by simpa [List.foldlM_cons] using e)

theorem setStyle (area : Rect) (style : Style) : DrawsHarmless fun b => b.setStyle area style := by
  intro b b' h e
  exact foldlM (f := fun b p => b.modifyCell p (Cell.setStyle style)) _
    (fun p _ => modifyCell (p := p) fun c hc => hc) b b' h e

theorem put (p : Position) {s : String} (hs : Harmless s) (style : Style) :
    DrawsHarmless fun b => b.modifyCell p fun c => (c.setSymbol s).setStyle style :=
  modifyCell fun _ _ => hs

theorem append (p : Position) {s : String} (hs : Harmless s) (style : Style) :
    DrawsHarmless fun b => b.modifyCell p fun c => (c.appendSymbol s).setStyle style :=
  modifyCell fun _ hc => harmless_append hc hs

theorem resetCell (p : Position) : DrawsHarmless fun b => b.modifyCell p Cell.reset :=
  modifyCell fun _ _ => harmless_space

theorem ifte {c : Prop} [Decidable c] {f g : Buffer → Option Buffer} (hf : DrawsHarmless f) (hg : DrawsHarmless g) :
    DrawsHarmless fun b => if c then f b else g b := by
  by_cases h : c
  · simpa only [if_pos h] using hf
  · simpa only [if_neg h] using hg

end DrawsHarmless

open DrawsHarmless

theorem hideLoop_harmless (y : Int) (n : Nat) (x : Int) : DrawsHarmless (Span.hideLoop y n x) := by
  induction n generalizing x with
  | zero => exact pure
  | succ n ih => exact bind (resetCell _) (ih _)

theorem putGrapheme_harmless (area : Rect) (first : Bool) (x y : Int) {gr : StyledGrapheme}
    (h : Harmless gr.g.symbol) : DrawsHarmless (Span.putGrapheme area first x y gr) := by
  unfold Span.putGrapheme
  exact ifte (put _ h _) (ifte (append _ h _) (ifte (append _ h _) (put _ h _)))

theorem renderLoop_harmless (area : Rect) (y : Int) {gs : List StyledGrapheme} (h : ∀ g ∈ gs, Harmless g.g.symbol)
    (first : Bool) (x : Int) : DrawsHarmless (Span.renderLoop area y gs first x) := by
  induction gs generalizing first x with
  | nil => exact pure
  | cons g gs ih =>
    exact ifte pure (bind (putGrapheme_harmless area first x y (h g (List.mem_cons_self ..)))
      (bind (hideLoop_harmless _ _ _) (ih (fun a ha => h a (List.mem_cons_of_mem _ ha)) _ _)))

theorem styledGraphemes_harmless (u : Uniseg) (s : Span) (style : Style) :
    ∀ g ∈ s.styledGraphemes u style, Harmless g.g.symbol := by
  intro g hg
  simp only [Span.styledGraphemes, List.mem_map, List.mem_filter] at hg
  obtain ⟨c, ⟨_, hc⟩, rfl⟩ := hg
  exact harmless_of_any (s := c) (by simpa using hc)

theorem span_harmless (u : Uniseg) (s : Span) (area : Rect) : DrawsHarmless (s.render u area) := by
  intro b b' h e
  exact ifte (c := (area.intersection b.area).isEmpty = true) pure
    (renderLoop_harmless _ _ (styledGraphemes_harmless u s Style.new) _ _) b b' h e

theorem renderAll_harmless (u : Uniseg) (l : List Span.After) (area : Rect) :
    DrawsHarmless (Span.renderAll u l area) := by
  induction l generalizing area with
  | nil => exact pure
  | cons s l ih => exact ifte pure (bind (span_harmless u _ _) (ih _))

theorem renderSpans_harmless (u : Uniseg) (l : List Span) (area : Rect) (n : Int) :
    DrawsHarmless (Span.renderSpans u l area n) := renderAll_harmless u _ area

theorem line_harmless (u : Uniseg) (l : Line) (area : Rect) (a : Alignment) :
    DrawsHarmless (l.renderAligned u area a) := by
  intro b b' h e
  refine ifte (c := (area.intersection b.area).isEmpty = true) pure
    (ifte (c := (l.width u : Int) = 0) pure (bind (setStyle _ _) (ifte
      (c := (l.width u : Int) ≤ (area.intersection b.area).width) ?_ ?_))) b b' h e
  · exact renderSpans_harmless u _ _ _
  · exact renderSpans_harmless u _ _ _

theorem renderLines_harmless (u : Uniseg) (a : Alignment) (ls : List Line) (rs : List Rect) :
    DrawsHarmless (Text.renderLines u a ls rs) := by
  induction ls generalizing rs with
  | nil => exact pure
  | cons l ls ih =>
    cases rs with
    | nil => exact pure
    | cons r rs => exact bind (line_harmless u l r a) (ih rs)

theorem text_harmless (u : Uniseg) (t : Text) (area : Rect) : DrawsHarmless (t.render u area) := by
  intro b b' h e
  exact bind (setStyle _ _) (renderLines_harmless u _ _ _) b b' h e

/-! ### Printing -/

theorem resetLoop_harmless (y : Int) (n : Nat) (x : Int) : DrawsHarmless (Buffer.resetLoop y n x) := by
  induction n generalizing x with
  | zero => exact pure
  | succ n ih => exact bind (resetCell _) (ih _)

theorem setStringLoop_harmless (y : Int) (style : Style) {l : List (String × Nat)} (h : ∀ g ∈ l, Harmless g.1)
    (x w : Int) {b : Buffer} {r : Buffer × Int} (hb : b.Harmless)
    (e : Buffer.setStringLoop y style l x w b = some r) : r.1.Harmless := by
  induction l generalizing x w b with
  | nil => cases e; exact hb
  | cons g l ih =>
    obtain ⟨s, n⟩ := g
    simp only [Buffer.setStringLoop] at e
    split at e
    · cases e1 : b.modifyCell ⟨x, y⟩ (fun c => (c.setSymbol s).setStyle style) with
      | none => simp [e1] at e
      | some b1 =>
        simp only [e1, Option.bind_eq_bind, Option.bind_some] at e
        cases e2 : Buffer.resetLoop y (n - 1) (x + 1) b1 with
        | none => simp [e2] at e
        | some b2 =>
          simp only [e2, Option.bind_some] at e
          have h1 := put ⟨x, y⟩ (h (s, n) (List.mem_cons_self ..)) style b b1 hb e1
          have h2 := resetLoop_harmless y (n - 1) (x + 1) b1 b2 h1 e2
          exact ih (fun a ha => h a (List.mem_cons_of_mem _ ha)) _ _ h2 e
    · cases e; exact hb

theorem setStringN_harmless {u : Uniseg} (hu : u.Lawful) {s : String} (hs : Harmless s) {x y w : Int} {style : Style}
    {b : Buffer} {r : Buffer × Int} (hb : b.Harmless) (e : b.setStringN u x y s w style = some r) :
    r.1.Harmless := by
  refine setStringLoop_harmless y style ?_ _ _ hb e
  intro g hg
  obtain ⟨c, hc, rfl⟩ := List.mem_map.1 hg
  exact harmless_cluster hu hs hc

/-! ### Blocks -/

/-- The symbols a block draws its borders with. -/
theorem drawIf_harmless (b : Block) (sides : Side) {s : String} (hs : Harmless s) (ps : List Position) :
    DrawsHarmless (b.drawIf sides s ps) :=
  ifte (foldlM _ fun p _ => put p hs _) pure

theorem drawTitle_harmless (u : Uniseg) (b : Block) (t : Title) (r : Rect) : DrawsHarmless (b.drawTitle u t r) :=
  bind (setStyle _ _) (line_harmless u _ _ _)

theorem rightLoop_harmless (u : Uniseg) (b : Block) (ts : List Title) (r : Rect) :
    DrawsHarmless (b.rightLoop u ts r) := by
  induction ts generalizing r with
  | nil => exact pure
  | cons t ts ih => exact ifte pure (bind (drawTitle_harmless u b t _) (ih _))

theorem leftLoop_harmless (u : Uniseg) (b : Block) (ts : List Title) (r : Rect) :
    DrawsHarmless (b.leftLoop u ts r) := by
  induction ts generalizing r with
  | nil => exact pure
  | cons t ts ih => exact ifte pure (bind (drawTitle_harmless u b t _) (ih _))

theorem titlePosition_harmless (u : Uniseg) (b : Block) (p : TitlePosition) (r : Rect) :
    DrawsHarmless (b.renderTitlePosition u p r) :=
  bind (rightLoop_harmless u b _ _) (bind (leftLoop_harmless u b _ _) (leftLoop_harmless u b _ _))

theorem renderBorders_harmless {b : Block} (hb : b.HarmlessBorders) (r : Rect) : DrawsHarmless (b.renderBorders r) := by
  have h : ∀ s ∈ b.symbols, ∀ sides ps, DrawsHarmless (b.drawIf sides s ps) :=
    fun s hs sides ps => drawIf_harmless b sides (hb s hs) ps
  refine bind (h _ ?_ _ _) (bind (h _ ?_ _ _) (bind (h _ ?_ _ _) (bind (h _ ?_ _ _) (bind (h _ ?_ _ _)
    (bind (h _ ?_ _ _) (bind (h _ ?_ _ _) (h _ ?_ _ _))))))) <;> simp [Block.symbols]

theorem block_harmless (u : Uniseg) {b : Block} (hb : b.HarmlessBorders) (r : Rect) : DrawsHarmless (b.render u r) :=
  ifte pure (bind (setStyle _ _) (bind (renderBorders_harmless hb _)
    (bind (titlePosition_harmless u b _ _) (titlePosition_harmless u b _ _))))

theorem inBlock_harmless (u : Uniseg) {b : Option Block} (hb : ∀ x, b = some x → x.HarmlessBorders) (r : Rect)
    {f g : Buffer → Option Buffer} (hf : DrawsHarmless f) (hg : ∀ x, b = some x → DrawsHarmless g) :
    DrawsHarmless fun buf => match b with
      | none => f buf
      | some x => (x.render u r buf).bind g := by
  cases b with
  | none => exact hf
  | some x => exact bind (block_harmless u (hb x rfl) r) (hg x rfl)

/-! ### Paragraphs -/

/-- A row of graphemes without control characters. -/
def HarmlessRow (l : List StyledGrapheme) : Prop := ∀ g ∈ l, Harmless g.g.symbol

theorem HarmlessRow.nil : HarmlessRow [] := fun _ h => absurd h List.not_mem_nil

theorem HarmlessRow.append {l m : List StyledGrapheme} (hl : HarmlessRow l) (hm : HarmlessRow m) :
    HarmlessRow (l ++ m) := fun g hg => (List.mem_append.1 hg).elim (hl g) (hm g)

theorem HarmlessRow.cleared (l : List StyledGrapheme) : HarmlessRow (StyledGrapheme.cleared l) := by
  intro g hg
  obtain ⟨_, _, rfl⟩ := List.mem_map.1 hg
  exact harmless_empty

theorem HarmlessRow.single {g : StyledGrapheme} (h : Harmless g.g.symbol) : HarmlessRow [g] := by
  intro a ha; rw [List.mem_singleton.1 ha]; exact h

theorem rowLoop_harmless (y : Int) {l : List StyledGrapheme} (h : HarmlessRow l) (x : Int) :
    DrawsHarmless (Paragraph.rowLoop y l x) := by
  induction l generalizing x with
  | nil => exact pure
  | cons g l ih =>
    have hl : HarmlessRow l := fun a ha => h a (List.mem_cons_of_mem _ ha)
    have hs : Harmless (if g.g.symbol = "" then " " else g.g.symbol) := by
      by_cases e : g.g.symbol = ""
      · rw [if_pos e]; exact harmless_space
      · rw [if_neg e]; exact h g (List.mem_cons_self ..)
    exact ifte (ih hl _) (bind (put _ hs _) (ih hl _))

theorem row_harmless (scrollY : Int) (area : Rect) (y : Int) {l : WrappedLine} (h : HarmlessRow l.line) :
    DrawsHarmless (Paragraph.row scrollY area y l) := by
  refine ifte ?_ pure
  cases Paragraph.lineOffset l.width area.width l.alignment with
  | none => intro b b' _ e; cases e
  | some x => exact rowLoop_harmless _ h _

theorem textLoop_harmless {S : Type} {next : S → Option (WrappedLine × S)} {I : S → Prop}
    (hI : ∀ s l s', I s → next s = some (l, s') → HarmlessRow l.line ∧ I s') (scrollY : Int) (area : Rect)
    (n : Nat) (y : Int) {s : S} (hs : I s) : DrawsHarmless (Paragraph.textLoop next scrollY area n y s) := by
  induction n generalizing y s with
  | zero => exact pure
  | succ n ih =>
    intro b b' h e
    simp only [Paragraph.textLoop] at e
    cases en : next s with
    | none => rw [en] at e; cases e; exact h
    | some r =>
      obtain ⟨l, s'⟩ := r
      rw [en] at e
      obtain ⟨hl, hs'⟩ := hI s l s' hs en
      exact bind (row_harmless scrollY area y hl) (ifte pure (ih (y + 1) hs')) b b' h e

/-- Everything a word wrapper holds is harmless. -/
structure WrapHarmless (s : Wrap.State) : Prop where
  queue : ∀ l ∈ s.queue, HarmlessRow l
  line : HarmlessRow s.pendingLine
  word : HarmlessRow s.pendingWord
  white : HarmlessRow s.pendingWhitespace

theorem dropFront_mem (l : List StyledGrapheme) (r w : Int) : ∀ g ∈ (Wrap.dropFront l r w).1, g ∈ l := by
  induction l generalizing r w with
  | nil => intro g hg; exact hg
  | cons a l ih =>
    intro g hg
    simp only [Wrap.dropFront] at hg
    split at hg
    · exact hg
    · exact List.mem_cons_of_mem _ (ih _ _ g hg)

theorem WrapHarmless.flush {s : Wrap.State} (h : WrapHarmless s) (trim : Bool) : WrapHarmless (s.flush trim) := by
  refine ⟨h.queue, ?_, HarmlessRow.cleared _, HarmlessRow.nil⟩
  simp only [Wrap.State.flush]
  split
  · exact (h.line.append h.white).append h.word
  · exact h.line.append h.word

theorem WrapHarmless.emit {s : Wrap.State} (h : WrapHarmless s) (max : Int) : WrapHarmless (s.emit max) := by
  refine ⟨?_, HarmlessRow.cleared _, h.word, fun g hg => h.white g (dropFront_mem _ _ _ g hg)⟩
  intro l hl
  rcases List.mem_append.1 hl with hl | hl
  · exact h.queue l hl
  · rw [List.mem_singleton.1 hl]; exact h.line

theorem WrapHarmless.push {s : Wrap.State} (h : WrapHarmless s) {g : StyledGrapheme} (hg : Harmless g.g.symbol) :
    WrapHarmless (s.push g) := by
  unfold Wrap.State.push
  split
  · exact ⟨h.queue, h.line, h.word, h.white.append (HarmlessRow.single hg)⟩
  · exact ⟨h.queue, h.line, h.word.append (HarmlessRow.single hg), h.white⟩

theorem WrapHarmless.step {s : Wrap.State} (h : WrapHarmless s) (max : Int) (trim : Bool) {g : StyledGrapheme}
    (hg : Harmless g.g.symbol) : WrapHarmless (s.step max trim g) := by
  unfold Wrap.State.step
  split
  · exact h
  · have h' : WrapHarmless (if s.ends max trim g then s.flush trim else s) := by
      split
      · exact h.flush trim
      · exact h
    generalize (if s.ends max trim g then s.flush trim else s) = s' at h' ⊢
    unfold Wrap.State.place
    split
    · simp only
      split
      · exact h'.emit max
      · exact (h'.emit max).push hg
    · exact h'.push hg

theorem WrapHarmless.foldl {s : Wrap.State} (h : WrapHarmless s) (max : Int) (trim : Bool) {l : List StyledGrapheme}
    (hl : HarmlessRow l) : WrapHarmless (l.foldl (Wrap.State.step max trim) s) := by
  induction l generalizing s with
  | nil => exact h
  | cons g l ih =>
    exact ih (h.step max trim (hl g (List.mem_cons_self ..))) fun a ha => hl a (List.mem_cons_of_mem _ ha)

theorem WrapHarmless.finish {s : Wrap.State} (h : WrapHarmless s) (trim : Bool) :
    ∀ l ∈ (s.finish trim).1, HarmlessRow l := by
  have h1 : ∀ l ∈ (if s.pendingLine.isEmpty && s.pendingWord.isEmpty && !s.pendingWhitespace.isEmpty then
      s.queue ++ [[]] else s.queue), HarmlessRow l := by
    intro l hl
    split at hl
    · rcases List.mem_append.1 hl with hl | hl
      · exact h.queue l hl
      · rw [List.mem_singleton.1 hl]; exact HarmlessRow.nil
    · exact h.queue l hl
  have h2 : HarmlessRow ((if !s.pendingLine.isEmpty || !trim then s.pendingLine ++ s.pendingWhitespace
      else s.pendingLine) ++ s.pendingWord) := by
    split
    · exact (h.line.append h.white).append h.word
    · exact h.line.append h.word
  intro l hl
  simp only [Wrap.State.finish] at hl
  generalize (if s.pendingLine.isEmpty && s.pendingWord.isEmpty && !s.pendingWhitespace.isEmpty then
      s.queue ++ [[]] else s.queue) = q at h1 hl
  generalize ((if !s.pendingLine.isEmpty || !trim then s.pendingLine ++ s.pendingWhitespace
      else s.pendingLine) ++ s.pendingWord) = m at h2 hl
  have h3 : ∀ l ∈ (if m.isEmpty then q else q ++ [m]), HarmlessRow l := by
    intro l hl
    split at hl
    · exact h1 l hl
    · rcases List.mem_append.1 hl with hl | hl
      · exact h1 l hl
      · rw [List.mem_singleton.1 hl]; exact h2
  generalize (if m.isEmpty then q else q ++ [m]) = q' at h3 hl
  split at hl
  · rw [List.mem_singleton.1 hl]; exact HarmlessRow.nil
  · exact h3 l hl

/-- What a word wrapper still has to deliver is harmless. -/
structure WrapperHarmless (w : WordWrapper) : Prop where
  input : ∀ l ∈ w.inputLines, HarmlessRow l.graphemes
  lines : ∀ l ∈ w.wrappedLines, HarmlessRow l

theorem pop_harmless {w : WordWrapper} (h : ∀ l ∈ w.wrappedLines, HarmlessRow l) {input : List InputLine}
    (hi : ∀ l ∈ input, HarmlessRow l.graphemes) {l : WrappedLine} {w' : WordWrapper}
    (e : w.pop input = some (l, w')) : HarmlessRow l.line ∧ WrapperHarmless w' := by
  unfold WordWrapper.pop at e
  split at e
  · rename_i line rest he
    cases e
    rw [he] at h
    exact ⟨h line (List.mem_cons_self ..), hi, fun a ha => h a (List.mem_cons_of_mem _ ha)⟩
  · cases e

theorem nextLoop_harmless {input : List InputLine} (hi : ∀ l ∈ input, HarmlessRow l.graphemes) {w : WordWrapper}
    (h : ∀ l ∈ w.wrappedLines, HarmlessRow l) {l : WrappedLine} {w' : WordWrapper}
    (e : WordWrapper.nextLoop input w = some (l, w')) : HarmlessRow l.line ∧ WrapperHarmless w' := by
  induction input generalizing w with
  | nil => exact pop_harmless h hi e
  | cons i input ih =>
    simp only [WordWrapper.nextLoop] at e
    split at e
    · rename_i r er
      cases e
      exact pop_harmless h hi er
    · have hw : WrapHarmless (WordWrapper.start { w with currentAlignment := i.alignment }) :=
        ⟨h, HarmlessRow.cleared _, HarmlessRow.cleared _, HarmlessRow.nil⟩
      exact ih (fun a ha => hi a (List.mem_cons_of_mem _ ha))
        ((hw.foldl _ _ (hi i (List.mem_cons_self ..))).finish _) e

theorem nextLine_harmless (w : WordWrapper) (l : WrappedLine) (w' : WordWrapper) (h : WrapperHarmless w)
    (e : w.nextLine = some (l, w')) : HarmlessRow l.line ∧ WrapperHarmless w' := by
  unfold WordWrapper.nextLine at e
  split at e
  · cases e
  · exact nextLoop_harmless h.input h.lines e

theorem trimLoop_mem (u : Uniseg) (l : List String) (n : Int) : ∀ c ∈ LineTruncator.trimLoop u l n, c ∈ l := by
  induction l generalizing n with
  | nil => intro c hc; exact hc
  | cons a l ih =>
    intro c hc
    simp only [LineTruncator.trimLoop] at hc
    split at hc
    · exact hc
    · exact List.mem_cons_of_mem _ (ih _ c hc)

theorem cut_harmless {u : Uniseg} (hu : u.Lawful) (a : Alignment) (n : Int) {g : StyledGrapheme}
    (h : Harmless g.g.symbol) : Harmless (LineTruncator.cut u a n g).1 := by
  unfold LineTruncator.cut
  split
  · exact h
  · split
    · exact harmless_join fun c hc => harmless_cluster hu h (trimLoop_mem u _ _ c hc)
    · exact harmless_empty

theorem lineLoop_harmless {u : Uniseg} (hu : u.Lawful) (max : Int) (a : Alignment) {l : List StyledGrapheme}
    (hl : HarmlessRow l) {s : LineTruncator.State} (hs : HarmlessRow s.line) :
    HarmlessRow (LineTruncator.lineLoop u max a l s).line := by
  induction l generalizing s with
  | nil => exact hs
  | cons g l ih =>
    have hl' : HarmlessRow l := fun a ha => hl a (List.mem_cons_of_mem _ ha)
    simp only [LineTruncator.lineLoop]
    split
    · exact ih hl' hs
    · split
      · exact hs
      · exact ih hl' (hs.append (HarmlessRow.single (cut_harmless hu a _ (hl g (List.mem_cons_self ..)))))

theorem linesLoop_harmless {u : Uniseg} (hu : u.Lawful) (max : Int) {ls : List InputLine}
    (hl : ∀ l ∈ ls, HarmlessRow l.graphemes) {s : LineTruncator.State} (hs : HarmlessRow s.line) :
    HarmlessRow (LineTruncator.linesLoop u max ls s).line := by
  induction ls generalizing s with
  | nil => exact hs
  | cons l ls ih =>
    exact ih (fun a ha => hl a (List.mem_cons_of_mem _ ha)) (lineLoop_harmless hu max _ (hl l (List.mem_cons_self ..)) hs)

theorem truncator_harmless {u : Uniseg} (hu : u.Lawful) (t : LineTruncator) (l : WrappedLine) (t' : LineTruncator)
    (h : ∀ l ∈ t.inputLines, HarmlessRow l.graphemes) (e : t.nextLine u = some (l, t')) :
    HarmlessRow l.line ∧ ∀ l ∈ t'.inputLines, HarmlessRow l.graphemes := by
  unfold LineTruncator.nextLine at e
  split at e
  · cases e
  · split at e
    · cases e
    · cases e
      exact ⟨linesLoop_harmless hu _ h (HarmlessRow.cleared _), fun _ h => absurd h List.not_mem_nil⟩

theorem inputLines_harmless (u : Uniseg) (p : Paragraph) : ∀ l ∈ p.inputLines u, HarmlessRow l.graphemes := by
  intro l hl
  obtain ⟨a, _, rfl⟩ := List.mem_map.1 hl
  intro g hg
  obtain ⟨s, _, hg⟩ := List.mem_flatMap.1 hg
  exact styledGraphemes_harmless u s _ g hg

theorem renderIn_harmless {u : Uniseg} (hu : u.Lawful) (p : Paragraph) (r : Rect) : DrawsHarmless (p.renderIn u r) := by
  refine ifte pure (bind (setStyle _ _) ?_)
  cases p.wrap with
  | some trim =>
    exact textLoop_harmless nextLine_harmless _ _ _ _ ⟨inputLines_harmless u p, fun _ h => absurd h List.not_mem_nil⟩
  | none => exact textLoop_harmless (truncator_harmless hu) _ _ _ _ (inputLines_harmless u p)

theorem paragraph_harmless {u : Uniseg} (hu : u.Lawful) (p : Paragraph) (hb : ∀ x, p.block = some x → x.HarmlessBorders)
    (r : Rect) : DrawsHarmless (p.render u r) := by
  intro b b' h e
  refine bind (setStyle _ _) ?_ b b' h e
  cases hp : p.block with
  | none => exact renderIn_harmless hu p r
  | some x => exact bind (block_harmless u (hb x hp) r) (renderIn_harmless hu p _)

/-! ### Lists -/

theorem harmless_spaces (n : Nat) : Harmless (String.ofList (List.replicate n ' ')) :=
  harmless_ofList fun c hc => by rw [(List.mem_replicate.1 hc).2]; decide

theorem symbolLoop_harmless {u : Uniseg} (hu : u.Lawful) {l : ListWidget} (hl : Harmless l.highlightSymbol)
    (sel : Bool) (x y w : Int) (style : Style) (n j : Nat) :
    DrawsHarmless (ListWidget.symbolLoop u l sel x y w style n j) := by
  induction n generalizing j with
  | zero => exact pure
  | succ n ih =>
    intro b b' h e
    have hs : Harmless (if sel && (j == 0 || l.repeatHighlightSymbol) then l.highlightSymbol
        else String.ofList (List.replicate (u.stringWidth l.highlightSymbol) ' ')) := by
      split
      · exact hl
      · exact harmless_spaces _
    obtain ⟨r, e1, e⟩ := Option.bind_eq_some_iff.1 e
    exact ih (j + 1) r.1 b' (setStringN_harmless hu hs h e1) e

theorem renderItem_harmless {u : Uniseg} (hu : u.Lawful) {l : ListWidget} (hl : Harmless l.highlightSymbol)
    (sp sel : Bool) (row : Rect) (item : Text) : DrawsHarmless (ListWidget.renderItem u l sp sel row item) := by
  refine DrawsHarmless.bind (setStyle _ _) (DrawsHarmless.bind (text_harmless u item _)
    (ifte (DrawsHarmless.bind ?_ (ifte (setStyle _ _) pure)) (DrawsHarmless.bind pure (ifte (setStyle _ _) pure))))
  exact symbolLoop_harmless hu hl _ _ _ _ _ _ _

theorem itemLoop_harmless {u : Uniseg} (hu : u.Lawful) {l : ListWidget} (hl : Harmless l.highlightSymbol)
    (sp : Bool) (sel : Option Int) (area : Rect) (items : List Text) (i h : Int) :
    DrawsHarmless (ListWidget.itemLoop u l sp sel area items i h) := by
  induction items generalizing i h with
  | nil => exact pure
  | cons t items ih => exact bind (renderItem_harmless hu hl _ _ _ t) (ih _ _)

theorem renderItems_harmless {u : Uniseg} (hu : u.Lawful) {l : ListWidget} (hl : Harmless l.highlightSymbol)
    {area : Rect} {b : Buffer} {s : ListWidget.State} {r : Buffer × ListWidget.State} (hb : b.Harmless)
    (e : l.renderItems u area b s = some r) : r.1.Harmless := by
  unfold ListWidget.renderItems at e
  split at e
  · cases e; exact hb
  · simp only [Option.bind_eq_bind] at e
    cases e1 : ListWidget.getItemsBounds (l.items.map ListWidget.itemHeight) l.scrollPadding
      (ListWidget.clampSelection l.items.length s).selected (ListWidget.clampSelection l.items.length s).offset
      area.height with
    | none => simp [e1] at e
    | some fl =>
      simp only [e1, Option.bind_some] at e
      split at e
      · cases e
      · obtain ⟨b', e2, e3⟩ := Option.bind_eq_some_iff.1 e
        cases e3
        exact itemLoop_harmless hu hl _ _ _ _ _ _ b b' hb e2

theorem list_harmless {u : Uniseg} (hu : u.Lawful) {l : ListWidget} (hl : Harmless l.highlightSymbol)
    (hx : ∀ x, l.block = some x → x.HarmlessBorders)
    {area : Rect} {b : Buffer} {s : ListWidget.State} {r : Buffer × ListWidget.State} (hb : b.Harmless)
    (e : l.render u area b s = some r) : r.1.Harmless := by
  unfold ListWidget.render at e
  obtain ⟨b1, e1, e⟩ := Option.bind_eq_some_iff.1 e
  have h1 := setStyle area l.style b b1 hb e1
  cases hp : l.block with
  | none => rw [hp] at e; exact renderItems_harmless hu hl h1 e
  | some x =>
    rw [hp] at e
    obtain ⟨b2, e2, e⟩ := Option.bind_eq_some_iff.1 e
    exact renderItems_harmless hu hl (block_harmless u (hx x hp) area b1 b2 h1 e2) e

/-! ### Input fields -/

theorem input_harmless {u : Uniseg} {i : InputField.Widget} (hx : ∀ x, i.block = some x → x.HarmlessBorders)
    {ω : Nat → Nat} {fuel : Nat} {area : Rect} {b : Buffer} {s : InputField.State} {r : Buffer × InputField.State}
    (hb : b.Harmless) (e : i.render ω fuel u area b s = some r) : r.1.Harmless := by
  unfold InputField.Widget.render at e
  obtain ⟨b1, e1, e⟩ := Option.bind_eq_some_iff.1 e
  have h1 := setStyle area i.style b b1 hb e1
  have row : ∀ (a : Rect) (b2 : Buffer), b2.Harmless →
      (match Layout.splitWithSpacers ω fuel i.rowLayout a with
        | .ok [row] _ => i.renderRow u row b2 s
        | _ => none) = some r → r.1.Harmless := by
    intro a b2 h2 e
    split at e
    · obtain ⟨⟨l, s'⟩, _, e⟩ := Option.bind_eq_some_iff.1 e
      obtain ⟨b4, e4, e⟩ := Option.bind_eq_some_iff.1 e
      cases e
      exact line_harmless u _ _ _ b2 b4 h2 e4
    · cases e
  cases hp : i.block with
  | none => rw [hp] at e; exact row _ _ h1 e
  | some x =>
    rw [hp] at e
    obtain ⟨⟨a, b2⟩, e2, e⟩ := Option.bind_eq_some_iff.1 e
    obtain ⟨b3, e3, e4⟩ := Option.map_eq_some_iff.1 e2
    cases e4
    exact row _ _ (block_harmless u (hx x hp) area b1 _ h1 e3) e

/-! ### Popups and throbbers -/

theorem clear_harmless (r : Rect) : DrawsHarmless (clear r) := by
  intro b b' h e
  exact foldlM _ (fun p _ => resetCell p) b b' h e

theorem popup_harmless {u : Uniseg} {p : Popup} (hx : ∀ x, p.block = some x → x.HarmlessBorders) (r : Rect) :
    DrawsHarmless (p.draw u r) := by
  refine bind (clear_harmless r) (bind (setStyle _ _) ?_)
  cases hp : p.block with
  | none => exact pure
  | some x => exact block_harmless u (hx x hp) r

theorem throbber_harmless {ω ω' : Nat → Nat} {fuel : Nat} {u : Uniseg} {t : Throbber} {area : Rect} {b b' : Buffer}
    {s : Throbber.State} (hb : b.Harmless) (e : t.render ω ω' fuel u area b s = .ok b') : b'.Harmless := by
  unfold Throbber.render at e
  split at e
  · cases e
  · simp only at e
    split at e
    · cases e
    · cases e
    · split at e
      · cases e
      · cases e
      · split at e
        · rename_i h
          cases e
          exact text_harmless u _ _ b _ hb h
        · cases e

/-! ### Widgets that print -/

theorem printLoop_harmless {u : Uniseg} (hu : u.Lawful) {l : Line} {ss : List Span} (hs : ∀ s ∈ ss, Harmless s.content)
    {x y w : Int} {b : Buffer} {r : Buffer × Int} (hb : b.Harmless) (e : l.printLoop u y ss x w b = some r) :
    r.1.Harmless := by
  induction ss generalizing x w b with
  | nil => cases e; exact hb
  | cons s ss ih =>
    simp only [Line.printLoop] at e
    split at e
    · cases e; exact hb
    · obtain ⟨r1, e1, e⟩ := Option.bind_eq_some_iff.1 e
      exact ih (fun a ha => hs a (List.mem_cons_of_mem _ ha))
        (setStringN_harmless hu (hs s (List.mem_cons_self ..)) hb e1) e

theorem print_harmless {u : Uniseg} (hu : u.Lawful) {l : Line} (hl : ∀ s ∈ l.spans, Harmless s.content)
    {x y w : Int} {b : Buffer} {r : Buffer × Int} (hb : b.Harmless) (e : l.print u x y w b = some r) :
    r.1.Harmless := printLoop_harmless hu hl hb e

theorem highlight_harmless (t : Tabs) (i : Nat) (x newX y : Int) : DrawsHarmless (t.highlight i x newX y) :=
  ifte (setStyle _ _) pure

theorem tabsLoop_harmless {u : Uniseg} (hu : u.Lawful) {t : Tabs} (ht : t.HarmlessText) (area : Rect)
    {ls : List Line} (hl : ∀ l ∈ ls, ∀ s ∈ l.spans, Harmless s.content) (i : Nat) (x : Int) :
    DrawsHarmless (t.loop u area ls i x) := by
  induction ls generalizing i x with
  | nil => exact pure
  | cons l ls ih =>
    intro b b' h e
    simp only [Tabs.loop] at e
    split at e
    · cases e; exact h
    · obtain ⟨r1, e1, e⟩ := Option.bind_eq_some_iff.1 e
      have h1 := print_harmless hu ht.left h e1
      split at e
      · cases e; exact h1
      · obtain ⟨r2, e2, e⟩ := Option.bind_eq_some_iff.1 e
        have h2 := print_harmless hu (hl l (List.mem_cons_self ..)) h1 e2
        obtain ⟨b3, e3, e⟩ := Option.bind_eq_some_iff.1 e
        have h3 := highlight_harmless t _ _ _ _ _ b3 h2 e3
        split at e
        · cases e; exact h3
        · obtain ⟨r4, e4, e⟩ := Option.bind_eq_some_iff.1 e
          have h4 := print_harmless hu ht.right h3 e4
          split at e
          · cases e; exact h4
          · obtain ⟨r5, e5, e⟩ := Option.bind_eq_some_iff.1 e
            have h5 := setStringN_harmless hu ht.divider h4 e5
            exact ih (fun a ha => hl a (List.mem_cons_of_mem _ ha)) _ _ _ _ h5 e

theorem tabs_harmless {u : Uniseg} (hu : u.Lawful) {t : Tabs} (ht : t.HarmlessText)
    (hx : ∀ x, t.block = some x → x.HarmlessBorders) (area : Rect) : DrawsHarmless (t.render u area) := by
  have hr : ∀ r, DrawsHarmless (t.renderTabs u r) := fun r => ifte pure (tabsLoop_harmless hu ht r ht.titles _ _)
  refine DrawsHarmless.bind (setStyle _ _) ?_
  cases hp : t.block with
  | none => exact hr area
  | some x => exact DrawsHarmless.bind (block_harmless u (hx x hp) area) (hr _)

theorem unicodeBlock_harmless (q : ℚ) : Harmless (Gauge.unicodeBlock q) := by
  unfold Gauge.unicodeBlock
  repeat' (first | decide | split)

theorem gauge_harmless {u : Uniseg} (hu : u.Lawful) {rnd : ℚ → ℚ} {g : Gauge}
    (hg : Harmless (g.shownLabel rnd).content) (area : Rect) : DrawsHarmless (g.render rnd u area) := by
  refine DrawsHarmless.bind (setStyle _ _) (ifte pure (DrawsHarmless.bind (setStyle _ _) ?_))
  intro b b' h e
  obtain ⟨b1, e1, e⟩ := Option.bind_eq_some_iff.1 e
  obtain ⟨r2, e2, e⟩ := Option.bind_eq_some_iff.1 e
  cases e
  refine setStringN_harmless hu hg ?_ e2
  refine foldlM (f := fun b (w : Position × (Cell → Cell)) => b.modifyCell w.1 w.2) _ (fun w hw => ?_) b b1 h e1
  refine modifyCell fun c hc => ?_
  simp only [Gauge.writes, List.mem_flatMap, List.mem_append, List.mem_map] at hw
  obtain ⟨y, _, ⟨x, _, rfl⟩ | hw⟩ := hw
  · simp only
    split <;> (show Harmless _; simp only [Cell.setBg, Cell.setFg, Cell.setSymbol]; decide)
  · split at hw
    · rw [List.mem_singleton.1 hw]; exact unicodeBlock_harmless _
    · cases hw

theorem scrollLoop_harmless {u : Uniseg} (hu : u.Lawful) {l : List (Rect × Option (String × Style))}
    (hl : ∀ a ∈ l, ∀ s, a.2 = some s → Harmless s.1) : DrawsHarmless (Scroll.drawLoop u l) := by
  induction l with
  | nil => exact pure
  | cons a l ih =>
    have ih := ih fun x hx => hl x (List.mem_cons_of_mem _ hx)
    obtain ⟨r, o⟩ := a
    cases o with
    | none => exact ih
    | some s =>
      obtain ⟨s, st⟩ := s
      have hs : Harmless s := hl _ (List.mem_cons_self ..) _ rfl
      intro b b' h e
      simp only [Scroll.drawLoop] at e
      obtain ⟨b1, e1, e⟩ := Option.bind_eq_some_iff.1 e
      obtain ⟨r1, e2, rfl⟩ := Option.map_eq_some_iff.1 e1
      exact ih _ _ (setStringN_harmless hu hs h e2) e

/-! ### Output -/

theorem diffLoop_cell (sw : String → Nat) (b : Buffer) (l m : List Cell) (i n k : Nat) {r : List PositionedCell}
    (e : Buffer.diffLoop sw b l m i n k = some r) : ∀ pc ∈ r, pc.cell ∈ m := by
  induction l generalizing m i n k r with
  | nil => simp only [Buffer.diffLoop, Option.some.injEq] at e; subst e; intro pc h; cases h
  | cons p l ih =>
    cases m with
    | nil => simp only [Buffer.diffLoop, Option.some.injEq] at e; subst e; intro pc h; cases h
    | cons c m =>
      simp only [Buffer.diffLoop] at e
      split at e
      · obtain ⟨hd, e1, e⟩ := Option.bind_eq_some_iff.1 e
        obtain ⟨tl, e2, e⟩ := Option.bind_eq_some_iff.1 e
        obtain ⟨q, _, rfl⟩ := Option.map_eq_some_iff.1 e1
        simp only [Option.some.injEq] at e
        subst e
        intro pc hpc
        rcases List.mem_append.1 hpc with h | h
        · rw [List.mem_singleton.1 h]; exact List.mem_cons_self ..
        · exact List.mem_cons_of_mem _ (ih m _ _ _ e2 pc h)
      · obtain ⟨hd, e1, e⟩ := Option.bind_eq_some_iff.1 e
        obtain ⟨tl, e2, e⟩ := Option.bind_eq_some_iff.1 e
        cases e1
        simp only [Option.some.injEq] at e
        subst e
        intro pc hpc
        exact List.mem_cons_of_mem _ (ih m _ _ _ e2 pc hpc)

theorem modifierDiff_print (a b : Modifier) (s : String) : Command.print s ∉ modifierDiff a b := by
  unfold modifierDiff
  simp only [List.mem_append, not_or]
  refine ⟨⟨⟨⟨⟨⟨⟨⟨⟨⟨⟨⟨⟨?_, ?_⟩, ?_⟩, ?_⟩, ?_⟩, ?_⟩, ?_⟩, ?_⟩, ?_⟩, ?_⟩, ?_⟩, ?_⟩, ?_⟩, ?_⟩ <;>
    (repeat' split) <;> simp

theorem drawLoop_print (T : Termenv) (cells : List PositionedCell) (l : Option Position) (m : Modifier) (f b : Color)
    {s : String} (h : Command.print s ∈ drawLoop T cells l m f b) : ∃ pc ∈ cells, pc.cell.symbol = s := by
  induction cells generalizing l m f b with
  | nil => cases h
  | cons pc cells ih =>
    simp only [drawLoop, List.mem_append] at h
    rcases h with (((h | h) | h) | h) | h
    · split at h <;> simp at h
    · split at h
      · exact absurd h (modifierDiff_print _ _ _)
      · cases h
    · split at h <;> simp at h
    · simp only [List.mem_singleton, Command.print.injEq] at h
      exact ⟨pc, List.mem_cons_self .., h.symm⟩
    · obtain ⟨q, hq, e⟩ := ih _ _ _ _ h
      exact ⟨q, List.mem_cons_of_mem _ hq, e⟩

theorem drawCommands_print (T : Termenv) {cells : List PositionedCell} {s : String}
    (h : Command.print s ∈ drawCommands T cells) : ∃ pc ∈ cells, pc.cell.symbol = s := by
  rcases List.mem_append.1 h with h | h
  · exact drawLoop_print T cells _ _ _ _ h
  · simp at h

theorem Buffer.harmless_reset (b : Buffer) : b.reset.Harmless := by
  intro c hc
  obtain ⟨d, _, rfl⟩ := List.mem_map.1 hc
  exact harmless_space

theorem newEmpty_harmless {r : Rect} {b : Buffer} (e : Buffer.newEmpty r = some b) : b.Harmless := by
  simp only [Buffer.newEmpty, Buffer.newFilled] at e
  split at e
  · cases e
  · cases e
    intro c hc
    rw [(List.mem_replicate.1 hc).2]
    exact harmless_space

theorem resize_harmless {r : Rect} {b b' : Buffer} (h : b.Harmless) (e : b.resize r = some b') : b'.Harmless := by
  simp only [Buffer.resize] at e
  split at e
  · split at e
    · cases e
    · cases e
      intro c hc
      exact h c (List.mem_of_mem_take hc)
  · cases e
    intro c hc
    rcases List.mem_append.1 hc with hc | hc
    · exact h c hc
    · rw [(List.mem_replicate.1 hc).2]; exact harmless_space

theorem new_harmless {v : Viewport} {w h : Int} {t : Terminal} (e : Terminal.new v w h = some t) : t.Harmless := by
  cases v with
  | inline _ => cases e
  | fullscreen =>
    obtain ⟨b, e1, e⟩ := Option.bind_eq_some_iff.1 e
    cases e
    exact ⟨newEmpty_harmless e1, newEmpty_harmless e1⟩
  | fixed r =>
    obtain ⟨b, e1, e⟩ := Option.bind_eq_some_iff.1 e
    cases e
    exact ⟨newEmpty_harmless e1, newEmpty_harmless e1⟩

theorem clear_terminal_harmless {T : Termenv} {t t' : Terminal} {f : Option Nat} {out : List Char} {ok : Bool}
    (h : t.Harmless) (e : t.clear T f = some (t', out, ok)) : t'.Harmless := by
  obtain ⟨cmds, _, e⟩ := Option.bind_eq_some_iff.1 e
  obtain ⟨o, _, e⟩ := Option.bind_eq_some_iff.1 e
  split at e
  · cases e; exact h
  · cases e; exact ⟨h.1, Buffer.harmless_reset _⟩

theorem resize_terminal_harmless {T : Termenv} {t t' : Terminal} {r : Rect} {f : Option Nat} {out : List Char} {ok : Bool}
    (h : t.Harmless) (e : t.resize T r f = some (t', out, ok)) : t'.Harmless := by
  unfold Terminal.resize at e
  split at e
  · cases e
  · obtain ⟨t1, e1, e⟩ := Option.bind_eq_some_iff.1 e
    obtain ⟨⟨t2, o2, ok2⟩, e2, e⟩ := Option.bind_eq_some_iff.1 e
    obtain ⟨c, ec, e1⟩ := Option.bind_eq_some_iff.1 e1
    obtain ⟨p, ep, e1⟩ := Option.bind_eq_some_iff.1 e1
    have h1 : t1.Harmless := by
      cases e1
      exact ⟨resize_harmless h.1 ec, resize_harmless h.2 ep⟩
    have h2 := clear_terminal_harmless h1 e2
    simp only at e
    split at e
    · cases e; exact h2
    · cases e; exact h2

theorem writeAll_concat {T : Termenv} {a b : List Command} {x y : List Char} (ha : writeAll T a = some x)
    (hb : writeAll T b = some y) : writeAll T (a ++ b) = some (x ++ y) := by
  induction a generalizing x with
  | nil => cases ha; exact hb
  | cons c a ih =>
    simp only [writeAll, List.cons_append, List.foldrM_cons] at ha ⊢
    obtain ⟨o, h1, h2⟩ := Option.bind_eq_some_iff.1 ha
    obtain ⟨w, h3, h4⟩ := Option.map_eq_some_iff.1 h2
    have := ih h1
    simp only [writeAll] at this
    rw [this]
    simp [h3, ← h4, List.append_assoc]

theorem draw_harmless {u : Uniseg} {T : Termenv} {t t' : Terminal} {w : Widget} {faults : Nat → Option Nat}
    {out : List Char} {ok : Bool} (h : t.Harmless) (hw : ∀ r, DrawsHarmless fun b => (w r b).map Prod.fst)
    (e : t.draw u T w faults = some (t', out, ok)) :
    t'.Harmless ∧ ∃ cmds all, writeAll T cmds = some all ∧ out <+: all ∧
      ∀ s, Command.print s ∈ cmds → Harmless s := by
  unfold Terminal.draw at e
  obtain ⟨⟨b, cp⟩, e1, e⟩ := Option.bind_eq_some_iff.1 e
  have hb : b.Harmless := hw t.viewportArea t.cur b h.1 (by simp [e1])
  simp only [Option.bind_eq_bind] at e
  obtain ⟨⟨t2, ups⟩, e2, e⟩ := Option.bind_eq_some_iff.1 e
  unfold Terminal.flush at e2
  obtain ⟨ups', e3, e2⟩ := Option.bind_eq_some_iff.1 e2
  have hprint : ∀ s, Command.print s ∈ drawCommands T ups' → Harmless s := by
    intro s hs
    obtain ⟨pc, hpc, rfl⟩ := drawCommands_print T hs
    exact hb _ (diffLoop_cell _ _ _ _ _ _ _ e3 pc hpc)
  have h2 : t2.Harmless ∧ ups = ups' := by
    split at e2 <;> (cases e2; exact ⟨⟨hb, h.2⟩, rfl⟩)
  obtain ⟨h2, rfl⟩ := h2
  obtain ⟨o, eo, e⟩ := Option.bind_eq_some_iff.1 e
  have hswap : ∀ t : Terminal, t.Harmless → t.swapBuffers.Harmless := fun t ht => ⟨Buffer.harmless_reset _, ht.1⟩
  split at e
  · cases e
    exact ⟨h2, _, _, eo, List.take_prefix .., hprint⟩
  · split at e
    · obtain ⟨o1, e4, e⟩ := Option.bind_eq_some_iff.1 e
      obtain ⟨x, ex, rfl⟩ := Option.map_eq_some_iff.1 e4
      have hc := writeAll_concat eo ex
      have hp : ∀ s, Command.print s ∈ drawCommands T ups ++ [Command.hideCursor] → Harmless s := by
        intro s hs
        rcases List.mem_append.1 hs with hs | hs
        · exact hprint s hs
        · simp at hs
      split at e
      · cases e
        exact ⟨h2, _, _, hc, List.take_prefix .., hp⟩
      · split at e
        · cases e
          exact ⟨⟨Buffer.harmless_reset _, h2.1⟩, _, _, hc, List.take_prefix .., hp⟩
        · cases e
          exact ⟨⟨Buffer.harmless_reset _, h2.1⟩, _, _, hc, List.prefix_rfl, hp⟩
    · obtain ⟨o1, e4, e⟩ := Option.bind_eq_some_iff.1 e
      obtain ⟨x, ex, rfl⟩ := Option.map_eq_some_iff.1 e4
      have hc := writeAll_concat eo ex
      have hp : ∀ s, Command.print s ∈ drawCommands T ups ++ [Command.showCursor] → Harmless s := by
        intro s hs
        rcases List.mem_append.1 hs with hs | hs
        · exact hprint s hs
        · simp at hs
      split at e
      · cases e
        exact ⟨h2, _, _, hc, List.take_prefix .., hp⟩
      · obtain ⟨o2, e5, e⟩ := Option.bind_eq_some_iff.1 e
        obtain ⟨z, ez, rfl⟩ := Option.map_eq_some_iff.1 e5
        have hc := writeAll_concat hc ez
        have hp : ∀ (x y : Int) (s : String),
            Command.print s ∈ drawCommands T ups ++ [Command.showCursor] ++ [Command.moveTo x y] → Harmless s := by
          intro x y s hs
          rcases List.mem_append.1 hs with hs | hs
          · exact hp s hs
          · simp at hs
        split at e
        · cases e
          exact ⟨h2, _, _, hc, List.take_prefix .., hp _ _⟩
        · split at e
          · cases e
            exact ⟨⟨Buffer.harmless_reset _, h2.1⟩, _, _, hc, List.take_prefix .., hp _ _⟩
          · cases e
            exact ⟨⟨Buffer.harmless_reset _, h2.1⟩, _, _, hc, List.prefix_rfl, hp _ _⟩

theorem session_harmless {u : Uniseg} {T : Termenv} {t : Terminal} (h : Terminal.Session u T t) : t.Harmless := by
  induction h with
  | new e => exact new_harmless e
  | draw _ hw e ih => exact (draw_harmless ih hw e).1
  | resize _ e ih => exact resize_terminal_harmless ih e

end Bento
