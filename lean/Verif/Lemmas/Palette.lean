import Verif.Spec.Palette
import Verif.Lemmas.Control

/-!
# Drawing operations that use given symbols and styles only
-/

namespace Bento

/-- What is kept by writing symbols of `S` in styles of `St`. -/
structure Palette (u : Uniseg) (S : String → Prop) (St : Style → Prop) (P : Cell → Prop) : Prop where
  lawful : u.Lawful
  space : S " "
  column : ∀ s, S s → 1 ≤ u.width s
  single : ∀ s, S s → u.graphemes s = [s]
  apart : Separable u S
  new : St Style.new
  patched : ∀ s t, St s → St t → St (s.patched t)
  put : ∀ v c, S v → P c → P (c.setSymbol v)
  style : ∀ s c, St s → P c → P (c.setStyle s)
  fg : ∀ s c, St s → P c → P (c.setFg (s.fg.getD .reset))
  bg : ∀ s c, St s → P c → P (c.setBg (s.bg.getD .reset))
  reset : ∀ c, P c → P c.reset

/-- All cells satisfy `P`. -/
def Buffer.All (P : Cell → Prop) (b : Buffer) : Prop := ∀ c ∈ b.content, P c

/-- The drawing keeps `P`. -/
def Paints (P : Cell → Prop) (f : Buffer → Option Buffer) : Prop := ∀ b b' : Buffer, b.All P → f b = some b' → b'.All P

namespace Paints

variable {u : Uniseg} {S : String → Prop} {St : Style → Prop} {P : Cell → Prop}

theorem pure : Paints P some := by
  intro b b' h e; cases e; exact h

theorem bind {f g : Buffer → Option Buffer} (hf : Paints P f) (hg : Paints P g) : Paints P fun b => (f b).bind g := by
  intro b b' h e
  cases e1 : f b with
  | none => simp [e1] at e
  | some b1 => simp only [e1, Option.bind_some] at e; exact hg b1 b' (hf b b1 h e1) e

theorem modifyCell {p : Position} {f : Cell → Cell} (hf : ∀ c, P c → P (f c)) :
    Paints P fun b => b.modifyCell p f := by
  intro b b' h e
  simp only [Buffer.modifyCell] at e
  cases ei : b.indexOf p with
  | none => simp [ei] at e
  | some i =>
    simp only [ei, Option.bind_eq_bind, Option.bind_some] at e
    split at e
    · cases e
      intro c hc
      obtain ⟨k, hk⟩ := List.mem_iff_getElem?.1 hc
      rw [List.getElem?_modify] at hk
      cases ek : b.content[k]? with
      | none => simp [ek] at hk
      | some d =>
        rw [ek] at hk
        have hd : d ∈ b.content := List.mem_of_getElem? ek
        simp only [Option.map_eq_map, Option.map_some, Option.some.injEq] at hk
        by_cases hik : i.toNat = k
        · rw [if_pos hik] at hk; subst hk; exact hf d (h d hd)
        · rw [if_neg hik] at hk; subst hk; exact h _ hd
    · cases e

theorem foldlM {α : Type} {f : Buffer → α → Option Buffer} (l : List α) (hf : ∀ a ∈ l, Paints P fun b => f b a) :
    Paints P fun b => l.foldlM f b := by
  induction l with
  | nil => exact pure
  | cons a l ih =>
    have := bind (hf a (List.mem_cons_self ..)) (ih fun x hx => hf x (List.mem_cons_of_mem _ hx))
    intro b b' h e
    exact this b b' h (by simpa [List.foldlM_cons] using e)

theorem ifte {c : Prop} [Decidable c] {f g : Buffer → Option Buffer} (hf : Paints P f) (hg : Paints P g) :
    Paints P fun b => if c then f b else g b := by
  by_cases h : c
  · simpa only [if_pos h] using hf
  · simpa only [if_neg h] using hg

theorem setStyle (hP : Palette u S St P) (area : Rect) {style : Style} (h : St style) :
    Paints P fun b => b.setStyle area style := by
  intro b b' hb e
  exact foldlM (f := fun b p => b.modifyCell p (Cell.setStyle style)) _
    (fun p _ => modifyCell (p := p) fun c hc => hP.style _ c h hc) b b' hb e

theorem put (hP : Palette u S St P) (p : Position) {s : String} (hs : S s) {style : Style} (h : St style) :
    Paints P fun b => b.modifyCell p fun c => (c.setSymbol s).setStyle style :=
  modifyCell fun c hc => hP.style _ _ h (hP.put _ c hs hc)

theorem resetCell (hP : Palette u S St P) (p : Position) : Paints P fun b => b.modifyCell p Cell.reset :=
  modifyCell fun c hc => hP.reset c hc

end Paints

namespace Palette

open Paints

variable {u : Uniseg} {S : String → Prop} {St : Style → Prop} {P : Cell → Prop}

theorem joins (hP : Palette u S St P) {l : List String} (h : ∀ s ∈ l, S s) : u.graphemes (String.join l) = l := by
  rw [hP.apart l h]
  induction l with
  | nil => rfl
  | cons s l ih =>
    rw [List.flatMap_cons, hP.single s (h s (List.mem_cons_self ..)), ih fun t ht => h t (List.mem_cons_of_mem _ ht)]
    rfl

theorem madeOf_join (hP : Palette u S St P) {l : List String} (h : ∀ s ∈ l, S s) : u.MadeOf S (String.join l) := by
  intro c hc
  rw [hP.joins h] at hc
  exact h c hc

theorem madeOf_empty (hP : Palette u S St P) : u.MadeOf S "" :=
  hP.madeOf_join (l := []) fun _ h => absurd h List.not_mem_nil

theorem madeOf_one (hP : Palette u S St P) {s : String} (h : S s) : u.MadeOf S s := by
  intro c hc
  rw [hP.single s h] at hc
  rw [List.mem_singleton.1 hc]
  exact h

/-! ### Text -/

theorem columns_one (hP : Palette u S St P) {s : String} (h : S s) : 1 ≤ u.stringWidth s := by
  simpa [Uniseg.stringWidth, hP.single s h] using hP.column s h

/-- Graphemes of at least one column that may be used. -/
def Row (u : Uniseg) (S : String → Prop) (St : Style → Prop) (l : List StyledGrapheme) : Prop :=
  ∀ g ∈ l, 1 ≤ g.g.width ∧ S g.g.symbol ∧ St g.style

theorem styledGraphemes (hP : Palette u S St P) {s : Span} (h : s.MadeOf u S St) {style : Style} (hs : St style) :
    Row u S St (s.styledGraphemes u style) := by
  intro g hg
  simp only [Span.styledGraphemes, List.mem_map, List.mem_filter] at hg
  obtain ⟨c, ⟨hc, _⟩, rfl⟩ := hg
  have := h.text c hc
  exact ⟨hP.columns_one this, this, hP.patched _ _ hs h.style⟩

theorem renderLoop (hP : Palette u S St P) (area : Rect) (y : Int) {gs : List StyledGrapheme} (h : Row u S St gs)
    (first : Bool) (x : Int) (hx : area.x ≤ x ∧ (first = true ∨ area.x < x)) : Paints P (Span.renderLoop area y gs first x) := by
  induction gs generalizing first x with
  | nil => exact pure
  | cons g gs ih =>
    obtain ⟨hw, hs, hst⟩ := h g (List.mem_cons_self ..)
    have hput : Paints P (Span.putGrapheme area first x y g) := by
      unfold Span.putGrapheme
      by_cases hf : first = true
      · simp only [hf, if_true]
        exact Paints.put hP _ hs hst
      · have hx1 : area.x < x := hx.2.resolve_left hf
        simp only [if_neg hf, if_neg (show ¬ x = area.x by omega), if_neg (show ¬ g.g.width = 0 by omega)]
        exact Paints.put hP _ hs hst
    have hhide : ∀ n z, Paints P (Span.hideLoop y n z) := by
      intro n
      induction n with
      | zero => intro z; exact pure
      | succ n ihn =>
        intro z
        exact bind (Paints.resetCell hP _) (ihn _)
    intro b b' hb e
    simp only [Span.renderLoop] at e
    split at e
    · cases e; exact hb
    · obtain ⟨b1, e1, e⟩ := Option.bind_eq_some_iff.1 e
      obtain ⟨b2, e2, e⟩ := Option.bind_eq_some_iff.1 e
      have h2 := hhide _ _ _ _ (hput _ _ hb e1) e2
      refine ih (fun a ha => h a (List.mem_cons_of_mem _ ha)) false _ ?_ b2 b' h2 e
      have := hx.1
      exact ⟨by omega, Or.inr (by omega)⟩

theorem span (hP : Palette u S St P) {s : Span} (h : s.MadeOf u S St) (area : Rect) : Paints P (s.render u area) := by
  intro b b' hb e
  exact ifte (c := (area.intersection b.area).isEmpty = true) pure
    (hP.renderLoop _ _ (hP.styledGraphemes h hP.new) _ _ ⟨le_refl _, Or.inl rfl⟩) b b' hb e

theorem truncateLoop (hP : Palette u S St P) (n : Int) {l : List String} (h : ∀ s ∈ l, S s) (w : Int) :
    u.MadeOf S (Span.truncateLoop u n l w).1 := by
  induction l generalizing w with
  | nil => exact hP.madeOf_empty
  | cons c l ih =>
    simp only [Span.truncateLoop]
    split
    · exact hP.madeOf_empty
    · split
      · exact hP.madeOf_join fun s hs => h s (List.mem_cons_of_mem _ hs)
      · exact ih (fun s hs => h s (List.mem_cons_of_mem _ hs)) _

theorem truncateStart (hP : Palette u S St P) (n : Int) {s : String} (h : u.MadeOf S s) :
    u.MadeOf S (Span.truncateStart u s n).1 := by
  unfold Span.truncateStart
  split
  · exact h
  · exact hP.truncateLoop n h _

theorem afterWidth (hP : Palette u S St P) {l : List Span} (h : ∀ s ∈ l, s.MadeOf u S St) (n : Int) :
    ∀ a ∈ Span.afterWidth u l n, a.span.MadeOf u S St := by
  induction l generalizing n with
  | nil => intro a ha; cases ha
  | cons s l ih =>
    have hs := h s (List.mem_cons_self ..)
    have ih := ih fun t ht => h t (List.mem_cons_of_mem _ ht)
    intro a ha
    simp only [Span.afterWidth] at ha
    split at ha
    · exact ih _ a ha
    · split at ha
      · rcases List.mem_cons.1 ha with rfl | ha
        · exact hs
        · exact ih _ a ha
      · rcases List.mem_cons.1 ha with rfl | ha
        · exact ⟨hs.style, hP.truncateStart _ hs.text⟩
        · exact ih _ a ha

theorem renderAll (hP : Palette u S St P) {l : List Span.After} (h : ∀ a ∈ l, a.span.MadeOf u S St) (area : Rect) :
    Paints P (Span.renderAll u l area) := by
  induction l generalizing area with
  | nil => exact pure
  | cons s l ih =>
    exact ifte pure (bind (hP.span (h s (List.mem_cons_self ..)) _) (ih (fun a ha => h a (List.mem_cons_of_mem _ ha)) _))

theorem renderSpans (hP : Palette u S St P) {l : List Span} (h : ∀ s ∈ l, s.MadeOf u S St) (area : Rect) (n : Int) :
    Paints P (Span.renderSpans u l area n) := hP.renderAll (hP.afterWidth h n) area

theorem line (hP : Palette u S St P) {l : Line} (h : l.MadeOf u S St) (area : Rect) (a : Alignment) :
    Paints P (l.renderAligned u area a) := by
  intro b b' hb e
  exact ifte (c := (area.intersection b.area).isEmpty = true) pure
    (ifte (c := (l.width u : Int) = 0) pure (bind (setStyle hP _ h.style) (ifte
      (c := (l.width u : Int) ≤ (area.intersection b.area).width) (hP.renderSpans h.spans _ _)
      (hP.renderSpans h.spans _ _)))) b b' hb e

theorem renderLines (hP : Palette u S St P) (a : Alignment) {ls : List Line} (h : ∀ l ∈ ls, l.MadeOf u S St)
    (rs : List Rect) : Paints P (Text.renderLines u a ls rs) := by
  induction ls generalizing rs with
  | nil => exact pure
  | cons l ls ih =>
    cases rs with
    | nil => exact pure
    | cons r rs =>
      exact bind (hP.line (h l (List.mem_cons_self ..)) r a) (ih (fun k hk => h k (List.mem_cons_of_mem _ hk)) rs)

theorem text (hP : Palette u S St P) {t : Text} (h : t.MadeOf u S St) (area : Rect) : Paints P (t.render u area) := by
  intro b b' hb e
  exact bind (setStyle hP _ h.style) (hP.renderLines _ h.lines _) b b' hb e

/-! ### Printing -/

theorem resetLoop (hP : Palette u S St P) (y : Int) (n : Nat) (x : Int) : Paints P (Buffer.resetLoop y n x) := by
  induction n generalizing x with
  | zero => exact pure
  | succ n ih => exact bind (resetCell hP _) (ih _)

theorem setStringLoop (hP : Palette u S St P) (y : Int) {style : Style} (hst : St style) {l : List (String × Nat)}
    (h : ∀ g ∈ l, S g.1) (x w : Int) {b : Buffer} {r : Buffer × Int} (hb : b.All P)
    (e : Buffer.setStringLoop y style l x w b = some r) : r.1.All P := by
  induction l generalizing x w b with
  | nil => cases e; exact hb
  | cons g l ih =>
    obtain ⟨s, n⟩ := g
    simp only [Buffer.setStringLoop] at e
    split at e
    · obtain ⟨b1, e1, e⟩ := Option.bind_eq_some_iff.1 e
      obtain ⟨b2, e2, e⟩ := Option.bind_eq_some_iff.1 e
      have h1 := Paints.put hP ⟨x, y⟩ (h (s, n) (List.mem_cons_self ..)) hst b b1 hb e1
      have h2 := hP.resetLoop y (n - 1) (x + 1) b1 b2 h1 e2
      exact ih (fun a ha => h a (List.mem_cons_of_mem _ ha)) _ _ h2 e
    · cases e; exact hb

theorem setStringN (hP : Palette u S St P) {s : String} (hs : u.MadeOf S s) {x y w : Int} {style : Style}
    (hst : St style) {b : Buffer} {r : Buffer × Int} (hb : b.All P) (e : b.setStringN u x y s w style = some r) :
    r.1.All P := by
  refine hP.setStringLoop y hst ?_ _ _ hb e
  intro g hg
  obtain ⟨c, hc, rfl⟩ := List.mem_map.1 hg
  exact hs c hc

/-! ### Blocks -/

theorem drawIf (hP : Palette u S St P) {b : Block} (hb : b.MadeOf u S St) (sides : Side) {s : String} (hs : S s)
    (ps : List Position) : Paints P (b.drawIf sides s ps) :=
  ifte (foldlM _ fun p _ => Paints.put hP p hs hb.borderStyle) pure

theorem drawTitle (hP : Palette u S St P) {b : Block} (hb : b.MadeOf u S St) {t : Title} (ht : t ∈ b.titles) (r : Rect) :
    Paints P (b.drawTitle u t r) :=
  bind (setStyle hP _ hb.titlesStyle) (hP.line (hb.titles t ht) _ _)

theorem rightLoop (hP : Palette u S St P) {b : Block} (hb : b.MadeOf u S St) {ts : List Title}
    (ht : ∀ t ∈ ts, t ∈ b.titles) (r : Rect) : Paints P (b.rightLoop u ts r) := by
  induction ts generalizing r with
  | nil => exact pure
  | cons t ts ih =>
    exact ifte pure (bind (hP.drawTitle hb (ht t (List.mem_cons_self ..)) _)
      (ih (fun a ha => ht a (List.mem_cons_of_mem _ ha)) _))

theorem leftLoop (hP : Palette u S St P) {b : Block} (hb : b.MadeOf u S St) {ts : List Title}
    (ht : ∀ t ∈ ts, t ∈ b.titles) (r : Rect) : Paints P (b.leftLoop u ts r) := by
  induction ts generalizing r with
  | nil => exact pure
  | cons t ts ih =>
    exact ifte pure (bind (hP.drawTitle hb (ht t (List.mem_cons_self ..)) _)
      (ih (fun a ha => ht a (List.mem_cons_of_mem _ ha)) _))

theorem titlePosition (hP : Palette u S St P) {b : Block} (hb : b.MadeOf u S St) (p : TitlePosition) (r : Rect) :
    Paints P (b.renderTitlePosition u p r) := by
  refine bind (hP.rightLoop hb (fun t ht => ?_) _) (bind (hP.leftLoop hb (fun t ht => ?_) _)
    (hP.leftLoop hb (fun t ht => ?_) _))
  · exact List.mem_of_mem_filter (List.mem_reverse.1 ht)
  · exact List.mem_of_mem_filter ht
  · exact List.mem_of_mem_filter ht

theorem renderBorders (hP : Palette u S St P) {b : Block} (hb : b.MadeOf u S St) (r : Rect) :
    Paints P (b.renderBorders r) := by
  have h : ∀ s ∈ b.symbols, ∀ sides ps, Paints P (b.drawIf sides s ps) :=
    fun s hs sides ps => hP.drawIf hb sides (hb.symbols s hs) ps
  refine bind (h _ ?_ _ _) (bind (h _ ?_ _ _) (bind (h _ ?_ _ _) (bind (h _ ?_ _ _) (bind (h _ ?_ _ _)
    (bind (h _ ?_ _ _) (bind (h _ ?_ _ _) (h _ ?_ _ _))))))) <;> simp [Block.symbols]

theorem block (hP : Palette u S St P) {b : Block} (hb : b.MadeOf u S St) (r : Rect) : Paints P (b.render u r) :=
  ifte pure (bind (setStyle hP _ hb.style) (bind (hP.renderBorders hb _)
    (bind (hP.titlePosition hb _ _) (hP.titlePosition hb _ _))))

/-! ### Paragraphs -/

/-- Graphemes that may be used, or none at all. -/
def Cells (S : String → Prop) (St : Style → Prop) (l : List StyledGrapheme) : Prop :=
  ∀ g ∈ l, (g.g.symbol = "" ∨ S g.g.symbol) ∧ St g.style

theorem Cells.nil : Cells S St [] := fun _ h => absurd h List.not_mem_nil

theorem Cells.append {l m : List StyledGrapheme} (hl : Cells S St l) (hm : Cells S St m) : Cells S St (l ++ m) :=
  fun g hg => (List.mem_append.1 hg).elim (hl g) (hm g)

theorem cleared (hP : Palette u S St P) (l : List StyledGrapheme) : Cells S St (StyledGrapheme.cleared l) := by
  intro g hg
  obtain ⟨_, _, rfl⟩ := List.mem_map.1 hg
  exact ⟨Or.inl rfl, hP.new⟩

theorem Cells.single {g : StyledGrapheme} (h : (g.g.symbol = "" ∨ S g.g.symbol) ∧ St g.style) : Cells S St [g] := by
  intro a ha; rw [List.mem_singleton.1 ha]; exact h

theorem rowLoop (hP : Palette u S St P) (y : Int) {l : List StyledGrapheme} (h : Cells S St l) (x : Int) :
    Paints P (Paragraph.rowLoop y l x) := by
  induction l generalizing x with
  | nil => exact pure
  | cons g l ih =>
    have hl : Cells S St l := fun a ha => h a (List.mem_cons_of_mem _ ha)
    obtain ⟨hg, hst⟩ := h g (List.mem_cons_self ..)
    have hs : S (if g.g.symbol = "" then " " else g.g.symbol) := by
      by_cases e : g.g.symbol = ""
      · rw [if_pos e]; exact hP.space
      · rw [if_neg e]; exact hg.resolve_left e
    exact ifte (ih hl _) (bind (Paints.put hP _ hs hst) (ih hl _))

theorem row (hP : Palette u S St P) (scrollY : Int) (area : Rect) (y : Int) {l : WrappedLine} (h : Cells S St l.line) :
    Paints P (Paragraph.row scrollY area y l) := by
  refine ifte ?_ pure
  cases Paragraph.lineOffset l.width area.width l.alignment with
  | none => intro b b' _ e; cases e
  | some x => exact hP.rowLoop _ h _

theorem textLoop (hP : Palette u S St P) {T : Type} {next : T → Option (WrappedLine × T)} {I : T → Prop}
    (hI : ∀ s l s', I s → next s = some (l, s') → Cells S St l.line ∧ I s') (scrollY : Int) (area : Rect)
    (n : Nat) (y : Int) {s : T} (hs : I s) : Paints P (Paragraph.textLoop next scrollY area n y s) := by
  induction n generalizing y s with
  | zero => exact pure
  | succ n ih =>
    intro b b' h e
    simp only [Paragraph.textLoop] at e
    cases en : next s with
    | none => rw [en] at e; cases e; exact h
    | some r =>
      obtain ⟨l, s'⟩ := r
      rw [en] at e
      obtain ⟨hl, hs'⟩ := hI s l s' hs en
      exact bind (hP.row scrollY area y hl) (ifte pure (ih (y + 1) hs')) b b' h e

/-- Everything a word wrapper holds may be used. -/
structure Wraps (S : String → Prop) (St : Style → Prop) (s : Wrap.State) : Prop where
  queue : ∀ l ∈ s.queue, Cells S St l
  line : Cells S St s.pendingLine
  word : Cells S St s.pendingWord
  white : Cells S St s.pendingWhitespace

theorem wrap_flush (hP : Palette u S St P) {s : Wrap.State} (h : Wraps S St s) (trim : Bool) : Wraps S St (s.flush trim) := by
  refine ⟨h.queue, ?_, hP.cleared _, Cells.nil⟩
  simp only [Wrap.State.flush]
  split
  · exact (h.line.append h.white).append h.word
  · exact h.line.append h.word

theorem wrap_emit (hP : Palette u S St P) {s : Wrap.State} (h : Wraps S St s) (max : Int) : Wraps S St (s.emit max) := by
  refine ⟨?_, hP.cleared _, h.word, fun g hg => h.white g (dropFront_mem _ _ _ g hg)⟩
  intro l hl
  rcases List.mem_append.1 hl with hl | hl
  · exact h.queue l hl
  · rw [List.mem_singleton.1 hl]; exact h.line

theorem wrap_push {s : Wrap.State} (h : Wraps S St s) {g : StyledGrapheme}
    (hg : (g.g.symbol = "" ∨ S g.g.symbol) ∧ St g.style) : Wraps S St (s.push g) := by
  unfold Wrap.State.push
  split
  · exact ⟨h.queue, h.line, h.word, h.white.append (Cells.single hg)⟩
  · exact ⟨h.queue, h.line, h.word.append (Cells.single hg), h.white⟩

theorem wrap_step (hP : Palette u S St P) {s : Wrap.State} (h : Wraps S St s) (max : Int) (trim : Bool)
    {g : StyledGrapheme} (hg : (g.g.symbol = "" ∨ S g.g.symbol) ∧ St g.style) : Wraps S St (s.step max trim g) := by
  unfold Wrap.State.step
  split
  · exact h
  · have h' : Wraps S St (if s.ends max trim g then s.flush trim else s) := by
      split
      · exact hP.wrap_flush h trim
      · exact h
    generalize (if s.ends max trim g then s.flush trim else s) = s' at h' ⊢
    unfold Wrap.State.place
    split
    · simp only
      split
      · exact hP.wrap_emit h' max
      · exact wrap_push (hP.wrap_emit h' max) hg
    · exact wrap_push h' hg

theorem wrap_foldl (hP : Palette u S St P) {s : Wrap.State} (h : Wraps S St s) (max : Int) (trim : Bool)
    {l : List StyledGrapheme} (hl : Cells S St l) : Wraps S St (l.foldl (Wrap.State.step max trim) s) := by
  induction l generalizing s with
  | nil => exact h
  | cons g l ih =>
    exact ih (hP.wrap_step h max trim (hl g (List.mem_cons_self ..))) fun a ha => hl a (List.mem_cons_of_mem _ ha)

theorem wrap_finish {s : Wrap.State} (h : Wraps S St s) (trim : Bool) : ∀ l ∈ (s.finish trim).1, Cells S St l := by
  have h1 : ∀ l ∈ (if s.pendingLine.isEmpty && s.pendingWord.isEmpty && !s.pendingWhitespace.isEmpty then
      s.queue ++ [[]] else s.queue), Cells S St l := by
    intro l hl
    split at hl
    · rcases List.mem_append.1 hl with hl | hl
      · exact h.queue l hl
      · rw [List.mem_singleton.1 hl]; exact Cells.nil
    · exact h.queue l hl
  have h2 : Cells S St ((if !s.pendingLine.isEmpty || !trim then s.pendingLine ++ s.pendingWhitespace
      else s.pendingLine) ++ s.pendingWord) := by
    split
    · exact (h.line.append h.white).append h.word
    · exact h.line.append h.word
  intro l hl
  simp only [Wrap.State.finish] at hl
  generalize (if s.pendingLine.isEmpty && s.pendingWord.isEmpty && !s.pendingWhitespace.isEmpty then
      s.queue ++ [[]] else s.queue) = q at h1 hl
  generalize ((if !s.pendingLine.isEmpty || !trim then s.pendingLine ++ s.pendingWhitespace
      else s.pendingLine) ++ s.pendingWord) = m at h2 hl
  have h3 : ∀ l ∈ (if m.isEmpty then q else q ++ [m]), Cells S St l := by
    intro l hl
    split at hl
    · exact h1 l hl
    · rcases List.mem_append.1 hl with hl | hl
      · exact h1 l hl
      · rw [List.mem_singleton.1 hl]; exact h2
  generalize (if m.isEmpty then q else q ++ [m]) = q' at h3 hl
  split at hl
  · rw [List.mem_singleton.1 hl]; exact Cells.nil
  · exact h3 l hl

/-- What a word wrapper still has to deliver may be used. -/
structure Wrapper (S : String → Prop) (St : Style → Prop) (w : WordWrapper) : Prop where
  input : ∀ l ∈ w.inputLines, Cells S St l.graphemes
  lines : ∀ l ∈ w.wrappedLines, Cells S St l

theorem pop {w : WordWrapper} (h : ∀ l ∈ w.wrappedLines, Cells S St l) {input : List InputLine}
    (hi : ∀ l ∈ input, Cells S St l.graphemes) {l : WrappedLine} {w' : WordWrapper}
    (e : w.pop input = some (l, w')) : Cells S St l.line ∧ Wrapper S St w' := by
  unfold WordWrapper.pop at e
  split at e
  · rename_i line rest he
    cases e
    rw [he] at h
    exact ⟨h line (List.mem_cons_self ..), hi, fun a ha => h a (List.mem_cons_of_mem _ ha)⟩
  · cases e

theorem nextLoop (hP : Palette u S St P) {input : List InputLine} (hi : ∀ l ∈ input, Cells S St l.graphemes)
    {w : WordWrapper} (h : ∀ l ∈ w.wrappedLines, Cells S St l) {l : WrappedLine} {w' : WordWrapper}
    (e : WordWrapper.nextLoop input w = some (l, w')) : Cells S St l.line ∧ Wrapper S St w' := by
  induction input generalizing w with
  | nil => exact pop h hi e
  | cons i input ih =>
    simp only [WordWrapper.nextLoop] at e
    split at e
    · rename_i r er
      cases e
      exact pop h hi er
    · have hw : Wraps S St (WordWrapper.start { w with currentAlignment := i.alignment }) :=
        ⟨h, hP.cleared _, hP.cleared _, Cells.nil⟩
      exact ih (fun a ha => hi a (List.mem_cons_of_mem _ ha))
        (wrap_finish (hP.wrap_foldl hw _ _ (hi i (List.mem_cons_self ..))) _) e

theorem nextLine (hP : Palette u S St P) (w : WordWrapper) (l : WrappedLine) (w' : WordWrapper) (h : Wrapper S St w)
    (e : w.nextLine = some (l, w')) : Cells S St l.line ∧ Wrapper S St w' := by
  unfold WordWrapper.nextLine at e
  split at e
  · cases e
  · exact hP.nextLoop h.input h.lines e

theorem cut (hP : Palette u S St P) (a : Alignment) (n : Int) {g : StyledGrapheme}
    (h : g.g.symbol = "" ∨ S g.g.symbol) :
    (LineTruncator.cut u a n g).1 = "" ∨ S (LineTruncator.cut u a n g).1 := by
  have key : ∀ (l : List String) (n : Int), LineTruncator.trimLoop u l n <:+ l := by
    intro l
    induction l with
    | nil => intro n; exact List.suffix_refl _
    | cons a l ih =>
      intro n
      simp only [LineTruncator.trimLoop]
      split
      · exact List.suffix_refl _
      · exact (ih _).trans (List.suffix_cons ..)
  unfold LineTruncator.cut
  split
  · exact h
  · split
    · unfold LineTruncator.trimOffset
      have hg : u.graphemes g.g.symbol = [] ∨ u.graphemes g.g.symbol = [g.g.symbol] := by
        rcases h with h | h
        · left
          rw [h]
          exact hP.joins (l := []) fun _ h => absurd h List.not_mem_nil
        · exact Or.inr (hP.single _ h)
      have hsuf := key (u.graphemes g.g.symbol) n
      rcases hg with hg | hg
      · rw [hg] at hsuf ⊢
        rw [List.suffix_nil.1 hsuf]
        exact Or.inl rfl
      · rw [hg] at hsuf ⊢
        rcases List.suffix_cons_iff.1 hsuf with h' | h'
        · rw [h']
          have : String.join [g.g.symbol] = g.g.symbol := by simp [String.join]
          rw [this]
          exact h
        · rw [List.suffix_nil.1 h']
          exact Or.inl rfl
    · exact Or.inl rfl

theorem lineLoop (hP : Palette u S St P) (max : Int) (a : Alignment) {l : List StyledGrapheme}
    (hl : Cells S St l) {s : LineTruncator.State} (hs : Cells S St s.line) :
    Cells S St (LineTruncator.lineLoop u max a l s).line := by
  induction l generalizing s with
  | nil => exact hs
  | cons g l ih =>
    have hl' : Cells S St l := fun a ha => hl a (List.mem_cons_of_mem _ ha)
    obtain ⟨hg, hst⟩ := hl g (List.mem_cons_self ..)
    simp only [LineTruncator.lineLoop]
    split
    · exact ih hl' hs
    · split
      · exact hs
      · exact ih hl' (hs.append (Cells.single ⟨hP.cut a _ hg, hst⟩))

theorem linesLoop (hP : Palette u S St P) (max : Int) {ls : List InputLine}
    (hl : ∀ l ∈ ls, Cells S St l.graphemes) {s : LineTruncator.State} (hs : Cells S St s.line) :
    Cells S St (LineTruncator.linesLoop u max ls s).line := by
  induction ls generalizing s with
  | nil => exact hs
  | cons l ls ih =>
    exact ih (fun a ha => hl a (List.mem_cons_of_mem _ ha)) (hP.lineLoop max _ (hl l (List.mem_cons_self ..)) hs)

theorem truncator (hP : Palette u S St P) (t : LineTruncator) (l : WrappedLine) (t' : LineTruncator)
    (h : ∀ l ∈ t.inputLines, Cells S St l.graphemes) (e : t.nextLine u = some (l, t')) :
    Cells S St l.line ∧ ∀ l ∈ t'.inputLines, Cells S St l.graphemes := by
  unfold LineTruncator.nextLine at e
  split at e
  · cases e
  · split at e
    · cases e
    · cases e
      exact ⟨hP.linesLoop _ h (hP.cleared _), fun _ h => absurd h List.not_mem_nil⟩

theorem inputLines (hP : Palette u S St P) {p : Paragraph} (h : p.MadeOf u S St) :
    ∀ l ∈ p.inputLines u, Cells S St l.graphemes := by
  intro l hl
  obtain ⟨a, ha, rfl⟩ := List.mem_map.1 hl
  intro g hg
  obtain ⟨s, hs, hg⟩ := List.mem_flatMap.1 hg
  have hl := h.text.lines a ha
  obtain ⟨_, h1, h2⟩ := hP.styledGraphemes (hl.spans s hs) (hP.patched _ _ h.text.style hl.style) g hg
  exact ⟨Or.inr h1, h2⟩

theorem renderIn (hP : Palette u S St P) {p : Paragraph} (h : p.MadeOf u S St) (r : Rect) : Paints P (p.renderIn u r) := by
  refine ifte pure (bind (setStyle hP _ h.style) ?_)
  cases p.wrap with
  | some trim =>
    exact hP.textLoop hP.nextLine _ _ _ _ ⟨hP.inputLines h, fun _ h => absurd h List.not_mem_nil⟩
  | none => exact hP.textLoop hP.truncator _ _ _ _ (hP.inputLines h)

theorem paragraph (hP : Palette u S St P) {p : Paragraph} (h : p.MadeOf u S St) (r : Rect) : Paints P (p.render u r) := by
  intro b b' hb e
  refine bind (setStyle hP _ h.style) ?_ b b' hb e
  cases hp : p.block with
  | none => exact hP.renderIn h r
  | some x => exact bind (hP.block (h.block x hp) r) (hP.renderIn h _)

/-! ### Lists -/

theorem spaces (hP : Palette u S St P) (n : Nat) : u.MadeOf S (String.ofList (List.replicate n ' ')) := by
  have : String.ofList (List.replicate n ' ') = String.join (List.replicate n " ") := by
    apply String.toList_injective
    rw [String.toList_ofList]
    induction n with
    | zero => rfl
    | succ n ih =>
      rw [List.replicate_succ, List.replicate_succ, ih, String.join_cons, String.toList_append]
      rfl
  rw [this]
  refine hP.madeOf_join fun s hs => ?_
  rw [(List.mem_replicate.1 hs).2]
  exact hP.space

theorem symbolLoop (hP : Palette u S St P) {l : ListWidget} (hl : l.MadeOf u S St)
    (sel : Bool) (x y w : Int) {style : Style} (hst : St style) (n j : Nat) :
    Paints P (ListWidget.symbolLoop u l sel x y w style n j) := by
  induction n generalizing j with
  | zero => exact pure
  | succ n ih =>
    intro b b' h e
    have hs : u.MadeOf S (if sel && (j == 0 || l.repeatHighlightSymbol) then l.highlightSymbol
        else String.ofList (List.replicate (u.stringWidth l.highlightSymbol) ' ')) := by
      split
      · exact hl.symbol
      · exact hP.spaces _
    obtain ⟨r, e1, e⟩ := Option.bind_eq_some_iff.1 e
    exact ih (j + 1) r.1 b' (hP.setStringN hs hst h e1) e

theorem renderItem (hP : Palette u S St P) {l : ListWidget} (hl : l.MadeOf u S St) (sp sel : Bool) (row : Rect)
    {item : Text} (hi : item.MadeOf u S St) : Paints P (ListWidget.renderItem u l sp sel row item) := by
  have hst := hP.patched _ _ hl.style hi.style
  refine Paints.bind (setStyle hP _ hst) (Paints.bind (hP.text hi _)
    (ifte (Paints.bind ?_ (ifte (setStyle hP _ hl.highlightStyle) pure))
      (Paints.bind pure (ifte (setStyle hP _ hl.highlightStyle) pure))))
  exact hP.symbolLoop hl _ _ _ _ hst _ _

theorem itemLoop (hP : Palette u S St P) {l : ListWidget} (hl : l.MadeOf u S St) (sp : Bool) (sel : Option Int)
    (area : Rect) {items : List Text} (hi : ∀ t ∈ items, t.MadeOf u S St) (i h : Int) :
    Paints P (ListWidget.itemLoop u l sp sel area items i h) := by
  induction items generalizing i h with
  | nil => exact pure
  | cons t items ih =>
    exact bind (hP.renderItem hl _ _ _ (hi t (List.mem_cons_self ..)))
      (ih (fun a ha => hi a (List.mem_cons_of_mem _ ha)) _ _)

theorem renderItems (hP : Palette u S St P) {l : ListWidget} (hl : l.MadeOf u S St)
    {area : Rect} {b : Buffer} {s : ListWidget.State} {r : Buffer × ListWidget.State} (hb : b.All P)
    (e : l.renderItems u area b s = some r) : r.1.All P := by
  unfold ListWidget.renderItems at e
  split at e
  · cases e; exact hb
  · simp only [Option.bind_eq_bind] at e
    cases e1 : ListWidget.getItemsBounds (l.items.map ListWidget.itemHeight) l.scrollPadding
      (ListWidget.clampSelection l.items.length s).selected (ListWidget.clampSelection l.items.length s).offset
      area.height with
    | none => simp [e1] at e
    | some fl =>
      simp only [e1, Option.bind_some] at e
      split at e
      · cases e
      · obtain ⟨b', e2, e3⟩ := Option.bind_eq_some_iff.1 e
        cases e3
        exact hP.itemLoop hl _ _ _ (fun t ht => hl.items t (List.mem_of_mem_drop (List.mem_of_mem_take ht))) _ _ b b' hb e2

theorem list (hP : Palette u S St P) {l : ListWidget} (hl : l.MadeOf u S St)
    {area : Rect} {b : Buffer} {s : ListWidget.State} {r : Buffer × ListWidget.State} (hb : b.All P)
    (e : l.render u area b s = some r) : r.1.All P := by
  unfold ListWidget.render at e
  obtain ⟨b1, e1, e⟩ := Option.bind_eq_some_iff.1 e
  have h1 := setStyle hP area hl.style b b1 hb e1
  cases hp : l.block with
  | none => rw [hp] at e; exact hP.renderItems hl h1 e
  | some x =>
    rw [hp] at e
    obtain ⟨b2, e2, e⟩ := Option.bind_eq_some_iff.1 e
    exact hP.renderItems hl (hP.block (hl.block x hp) area b1 b2 h1 e2) e

/-! ### Input fields -/

theorem graphemesString (hP : Palette u S St P) {l : List Grapheme} (h : ∀ g ∈ l, S g.symbol) :
    u.MadeOf S (Bento.graphemesString l) := by
  refine hP.madeOf_join fun s hs => ?_
  obtain ⟨g, hg, rfl⟩ := List.mem_map.1 hs
  exact h g hg

theorem spanNew (hP : Palette u S St P) {s : String} (h : u.MadeOf S s) : (Span.new s).MadeOf u S St := ⟨hP.new, h⟩

theorem inputSplit (hP : Palette u S St P) {i : InputField.Widget} (h : i.MadeOf u S St) {s : InputField.State}
    (hs : ∀ g ∈ s.graphemes, S g.symbol) {a b c : Span} (e : i.split s = some (a, b, c)) :
    a.MadeOf u S St ∧ b.MadeOf u S St ∧ c.MadeOf u S St := by
  have empty := hP.spanNew hP.madeOf_empty
  unfold InputField.Widget.split at e
  split at e
  · split at e
    · cases e; exact ⟨empty, empty, empty⟩
    · rename_i g rest hp
      cases e
      refine ⟨empty, ⟨h.placeholderStyle, hP.madeOf_one (h.placeholder g ?_)⟩, h.placeholderStyle,
        hP.graphemesString fun g' hg' => h.placeholder g' ?_⟩
      · rw [hp]; exact List.mem_cons_self ..
      · rw [hp]; exact List.mem_cons_of_mem _ hg'
  · obtain ⟨⟨before, under, after⟩, e1, e⟩ := Option.bind_eq_some_iff.1 e
    have hsub : u.MadeOf S (Bento.graphemesString (before ++ [under])) ∧ ∀ g ∈ after, S g.symbol := by
      unfold InputField.State.splitAtCursor at e1
      split at e1
      · cases e1
        exact ⟨hP.madeOf_empty, hs⟩
      · split at e1
        · cases e1
        · split at e1
          · cases e1
          · rename_i x hx
            cases e1
            refine ⟨hP.graphemesString fun g hg => ?_, fun g hg => hs g (List.mem_of_mem_drop hg)⟩
            rcases List.mem_append.1 hg with hg | hg
            · exact hs g (List.mem_of_mem_take hg)
            · rw [List.mem_singleton.1 hg]
              exact hs _ (List.mem_of_getElem? hx)
    have h1 := hP.spanNew hsub.1
    simp only at e
    split at e
    · cases e; exact ⟨h1, empty, empty⟩
    · rename_i g rest
      cases e
      exact ⟨h1, hP.spanNew (hP.madeOf_one (hsub.2 g (List.mem_cons_self ..))),
        hP.spanNew (hP.graphemesString fun g' hg' => hsub.2 g' (List.mem_cons_of_mem _ hg'))⟩

theorem cursorSpan (hP : Palette u S St P) {i : InputField.Widget} (h : i.MadeOf u S St) (s : InputField.State)
    {c : Span} (hc : c.MadeOf u S St) : (i.cursorSpan s c).MadeOf u S St := by
  unfold InputField.Widget.cursorSpan
  split
  · refine ⟨hP.patched _ _ hc.style h.cursorStyle, ?_⟩
    show u.MadeOf S (if c.content = "" then " " else c.content)
    split
    · exact hP.madeOf_one hP.space
    · exact hc.text
  · exact hc

theorem inputLine (hP : Palette u S St P) {i : InputField.Widget} (h : i.MadeOf u S St) {s s' : InputField.State}
    (hs : ∀ g ∈ s.graphemes, S g.symbol) {w : Int} {l : Line} (e : i.line u w s = some (l, s')) : l.MadeOf u S St := by
  unfold InputField.Widget.line at e
  obtain ⟨⟨first, last⟩, _, e⟩ := Option.bind_eq_some_iff.1 e
  obtain ⟨rest, e1, e⟩ := Option.bind_eq_some_iff.1 e
  obtain ⟨visible, e2, e⟩ := Option.bind_eq_some_iff.1 e
  obtain ⟨⟨before, cursor, after⟩, e3, e⟩ := Option.bind_eq_some_iff.1 e
  cases e
  have hr : ∀ g ∈ rest, S g.symbol := by
    unfold InputField.skip at e1
    split at e1
    · cases e1
    · cases e1
      exact fun g hg => hs g (List.mem_of_mem_drop hg)
  have hv : ∀ g ∈ visible, S g.symbol := by
    unfold InputField.take at e2
    split at e2
    · cases e2
    · cases e2
      exact fun g hg => hr g (List.mem_of_mem_take hg)
  obtain ⟨h1, h2, h3⟩ := hP.inputSplit h hv e3
  refine ⟨hP.new, fun t ht => ?_⟩
  simp only [List.mem_cons, List.not_mem_nil, or_false] at ht
  rcases ht with rfl | rfl | rfl | rfl
  · split
    · exact ⟨h.promptStyle, h.prompt⟩
    · exact hP.spanNew hP.madeOf_empty
  · exact h1
  · exact hP.cursorSpan h _ h2
  · exact h3

theorem input (hP : Palette u S St P) {i : InputField.Widget} (h : i.MadeOf u S St)
    {ω : Nat → Nat} {fuel : Nat} {area : Rect} {b : Buffer} {s : InputField.State} {r : Buffer × InputField.State}
    (hs : ∀ g ∈ s.graphemes, S g.symbol) (hb : b.All P) (e : i.render ω fuel u area b s = some r) : r.1.All P := by
  unfold InputField.Widget.render at e
  obtain ⟨b1, e1, e⟩ := Option.bind_eq_some_iff.1 e
  have h1 := setStyle hP area h.style b b1 hb e1
  have row : ∀ (a : Rect) (b2 : Buffer), b2.All P →
      (match Layout.splitWithSpacers ω fuel i.rowLayout a with
        | .ok [row] _ => i.renderRow u row b2 s
        | _ => none) = some r → r.1.All P := by
    intro a b2 h2 e
    split at e
    · obtain ⟨⟨l, s'⟩, el, e⟩ := Option.bind_eq_some_iff.1 e
      obtain ⟨b4, e4, e⟩ := Option.bind_eq_some_iff.1 e
      cases e
      exact hP.line (hP.inputLine h hs el) _ _ b2 b4 h2 e4
    · cases e
  cases hp : i.block with
  | none => rw [hp] at e; exact row _ _ h1 e
  | some x =>
    rw [hp] at e
    obtain ⟨⟨a, b2⟩, e2, e⟩ := Option.bind_eq_some_iff.1 e
    obtain ⟨b3, e3, e4⟩ := Option.map_eq_some_iff.1 e2
    cases e4
    exact row _ _ (hP.block (h.block x hp) area b1 _ h1 e3) e

/-! ### Popups and throbbers -/

theorem clear (hP : Palette u S St P) (r : Rect) : Paints P (Bento.clear r) := by
  intro b b' h e
  exact foldlM _ (fun p _ => resetCell hP p) b b' h e

theorem fill (hP : Palette u S St P) {f : Fill} (hs : S f.symbol) (hst : St f.style) (r : Rect) : Paints P (f.render r) := by
  intro b b' h e
  exact foldlM _ (fun p _ => modifyCell fun c hc => hP.put _ _ hs (hP.style _ _ hst (hP.reset c hc))) b b' h e

theorem popup (hP : Palette u S St P) {p : Popup} (h : p.MadeOf u S St) (r : Rect) : Paints P (p.draw u r) := by
  refine bind (hP.clear r) (bind (setStyle hP _ h.style) ?_)
  cases hp : p.block with
  | none => exact pure
  | some x => exact hP.block (h.block x hp) r

theorem throbber (hP : Palette u S St P) {ω ω' : Nat → Nat} {fuel : Nat} {t : Throbber} (h : t.MadeOf u S St)
    {area : Rect} {b b' : Buffer} {s : Throbber.State} (hb : b.All P) (e : t.render ω ω' fuel u area b s = .ok b') :
    b'.All P := by
  unfold Throbber.render at e
  split at e
  · cases e
  · rename_i frame hf
    simp only at e
    split at e
    · cases e
    · cases e
    · split at e
      · cases e
      · cases e
      · split at e
        · rename_i hr
          cases e
          exact hP.text (h.frames _ _ hf) _ b _ hb hr
        · cases e

/-! ### Widgets that print -/

theorem printLoop (hP : Palette u S St P) {l : Line} (hl : St l.style) {ss : List Span} (hs : ∀ s ∈ ss, s.MadeOf u S St)
    {x y w : Int} {b : Buffer} {r : Buffer × Int} (hb : b.All P) (e : l.printLoop u y ss x w b = some r) :
    r.1.All P := by
  induction ss generalizing x w b with
  | nil => cases e; exact hb
  | cons s ss ih =>
    simp only [Line.printLoop] at e
    have h := hs s (List.mem_cons_self ..)
    split at e
    · cases e; exact hb
    · obtain ⟨r1, e1, e⟩ := Option.bind_eq_some_iff.1 e
      exact ih (fun a ha => hs a (List.mem_cons_of_mem _ ha))
        (hP.setStringN h.text (hP.patched _ _ hl h.style) hb e1) e

theorem print (hP : Palette u S St P) {l : Line} (hl : l.MadeOf u S St)
    {x y w : Int} {b : Buffer} {r : Buffer × Int} (hb : b.All P) (e : l.print u x y w b = some r) :
    r.1.All P := hP.printLoop hl.style hl.spans hb e

theorem highlight (hP : Palette u S St P) {t : Tabs} (ht : t.MadeOf u S St) (i : Nat) (x newX y : Int) :
    Paints P (t.highlight i x newX y) := ifte (setStyle hP _ ht.highlightStyle) pure

theorem tabsLoop (hP : Palette u S St P) {t : Tabs} (ht : t.MadeOf u S St) (area : Rect)
    {ls : List Line} (hl : ∀ l ∈ ls, l.MadeOf u S St) (i : Nat) (x : Int) : Paints P (t.loop u area ls i x) := by
  induction ls generalizing i x with
  | nil => exact pure
  | cons l ls ih =>
    intro b b' h e
    simp only [Tabs.loop] at e
    split at e
    · cases e; exact h
    · obtain ⟨r1, e1, e⟩ := Option.bind_eq_some_iff.1 e
      have h1 := hP.print ht.left h e1
      split at e
      · cases e; exact h1
      · obtain ⟨r2, e2, e⟩ := Option.bind_eq_some_iff.1 e
        have h2 := hP.print (hl l (List.mem_cons_self ..)) h1 e2
        obtain ⟨b3, e3, e⟩ := Option.bind_eq_some_iff.1 e
        have h3 := hP.highlight ht _ _ _ _ _ b3 h2 e3
        split at e
        · cases e; exact h3
        · obtain ⟨r4, e4, e⟩ := Option.bind_eq_some_iff.1 e
          have h4 := hP.print ht.right h3 e4
          split at e
          · cases e; exact h4
          · obtain ⟨r5, e5, e⟩ := Option.bind_eq_some_iff.1 e
            have h5 := hP.setStringN ht.divider.text ht.divider.style h4 e5
            exact ih (fun a ha => hl a (List.mem_cons_of_mem _ ha)) _ _ _ _ h5 e

theorem tabs (hP : Palette u S St P) {t : Tabs} (ht : t.MadeOf u S St) (area : Rect) : Paints P (t.render u area) := by
  have hr : ∀ r, Paints P (t.renderTabs u r) := fun r => ifte pure (hP.tabsLoop ht r ht.titles _ _)
  refine Paints.bind (setStyle hP _ ht.style) ?_
  cases hp : t.block with
  | none => exact hr area
  | some x => exact Paints.bind (hP.block (ht.block x hp) area) (hr _)

theorem unicodeBlock (hP : Palette u S St P)
    (h : ∀ s ∈ ["█", "▉", "▊", "▋", "▌", "▍", "▎", "▏"], S s) (q : ℚ) : S (Gauge.unicodeBlock q) := by
  unfold Gauge.unicodeBlock
  split <;> first | exact h _ (by decide) | exact hP.space

theorem gauge (hP : Palette u S St P) {rnd : ℚ → ℚ} {g : Gauge} (hg : g.MadeOf rnd u S St) (area : Rect) :
    Paints P (g.render rnd u area) := by
  refine Paints.bind (setStyle hP _ hg.style) (ifte pure (Paints.bind (setStyle hP _ hg.gaugeStyle) ?_))
  intro b b' h e
  obtain ⟨b1, e1, e⟩ := Option.bind_eq_some_iff.1 e
  obtain ⟨r2, e2, e⟩ := Option.bind_eq_some_iff.1 e
  cases e
  refine hP.setStringN hg.label.text hg.label.style ?_ e2
  refine foldlM (f := fun b (w : Position × (Cell → Cell)) => b.modifyCell w.1 w.2) _ (fun w hw => ?_) b b1 h e1
  refine modifyCell fun c hc => ?_
  simp only [Gauge.writes, List.mem_flatMap, List.mem_append, List.mem_map] at hw
  obtain ⟨y, _, ⟨x, _, rfl⟩ | hw⟩ := hw
  · simp only
    split
    · exact hP.bg _ _ hg.gaugeStyle (hP.fg _ _ hg.gaugeStyle (hP.put _ _ (hg.bar _ (by decide)) hc))
    · exact hP.bg _ _ hg.gaugeStyle (hP.fg _ _ hg.gaugeStyle (hP.put _ _ hP.space hc))
  · split at hw
    · rw [List.mem_singleton.1 hw]; exact hP.put _ _ (hP.unicodeBlock hg.bar _) hc
    · cases hw

theorem scrollLoop (hP : Palette u S St P) {l : List (Rect × Option (String × Style))}
    (hl : ∀ a ∈ l, ∀ s, a.2 = some s → u.MadeOf S s.1 ∧ St s.2) : Paints P (Scroll.drawLoop u l) := by
  induction l with
  | nil => exact pure
  | cons a l ih =>
    have ih := ih fun x hx => hl x (List.mem_cons_of_mem _ hx)
    obtain ⟨r, o⟩ := a
    cases o with
    | none => exact ih
    | some s =>
      obtain ⟨s, st⟩ := s
      obtain ⟨hs, hst⟩ := hl _ (List.mem_cons_self ..) _ rfl
      intro b b' h e
      simp only [Scroll.drawLoop] at e
      obtain ⟨b1, e1, e⟩ := Option.bind_eq_some_iff.1 e
      obtain ⟨r1, e2, rfl⟩ := Option.map_eq_some_iff.1 e1
      exact ih _ _ (hP.setStringN hs hst h e2) e

theorem scroll (hP : Palette u S St P) (rd : Int → Int → Int) {s : Scroll} (h : s.MadeOf u S St) (area : Rect)
    (state : Scroll.State) : Paints P (fun b => s.render rd u area b state) := by
  intro b b' hb e
  simp only [Scroll.render] at e
  split at e
  · cases e; exact hb
  · split at e
    · cases e; exact hb
    · refine hP.scrollLoop (fun a ha v hv => ?_) b b' hb e
      have ha := (List.of_mem_zip ha).2
      rw [hv] at ha
      obtain ⟨h1, h2, h3, h4⟩ := h.styles
      simp only [Scroll.barSymbols, List.mem_append, List.mem_singleton, List.mem_replicate] at ha
      rcases ha with (((ha | ⟨_, ha⟩) | ⟨_, ha⟩) | ⟨_, ha⟩) | ha
      · obtain ⟨x, hx, rfl⟩ := Option.map_eq_some_iff.1 ha.symm
        exact ⟨h.begins x hx, h1⟩
      · obtain ⟨x, hx, rfl⟩ := Option.map_eq_some_iff.1 ha.symm
        exact ⟨h.track x hx, h2⟩
      · cases ha
        exact ⟨h.thumb, h4⟩
      · obtain ⟨x, hx, rfl⟩ := Option.map_eq_some_iff.1 ha.symm
        exact ⟨h.track x hx, h2⟩
      · obtain ⟨x, hx, rfl⟩ := Option.map_eq_some_iff.1 ha.symm
        exact ⟨h.ends x hx, h3⟩

end Palette

end Bento
