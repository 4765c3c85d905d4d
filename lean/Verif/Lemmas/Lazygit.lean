import Verif.Lemmas.LazygitPanel
import Verif.Lemmas.LazygitLayout

/-!
# The picture of the example program
-/

namespace Bento.Lazygit

theorem newTitleStr_eq {s : String} (h : Plain s.toList) (hne : s.toList ≠ []) (hb : byteSize s.toList < 65536) :
    newTitleStr s = ⟨.none, none, textLine .none s.toList⟩ := by
  unfold newTitleStr
  rw [h.newLineStr hne hb]
  rfl

theorem newBlock_eq (m : Model) (p : Panel) {title : String} (ht : p.title = some title) (h : Plain title.toList)
    (hne : title.toList ≠ []) (hb : byteSize title.toList < 65536) (footer : String)
    (hf : footer = "" ∨ Plain footer.toList ∧ footer.toList ≠ [] ∧ byteSize footer.toList < 65536) :
    newBlock m p footer = some (panelBlock (decide (m.activePanel = p)) title footer) := by
  unfold newBlock
  rw [ht]
  simp only [Option.bind_eq_bind, Option.bind_some]
  rw [newTitleStr_eq h hne hb]
  rcases hf with rfl | ⟨f1, f2, f3⟩
  · rw [if_pos rfl]
    congr 1
    by_cases ha : m.activePanel = p
    · rw [if_pos ha]
      simp only [panelBlock, ha, decide_true, if_true]
      rfl
    · rw [if_neg ha]
      simp only [panelBlock, ha, decide_false, if_true]
      rfl
  · have hne' : footer ≠ "" := by rintro rfl; exact f2 rfl
    rw [if_neg hne', newTitleStr_eq f1 f2 f3]
    congr 1
    by_cases ha : m.activePanel = p
    · rw [if_pos ha]
      simp only [panelBlock, ha, decide_true, if_true, hne', if_false]
      rfl
    · rw [if_neg ha]
      simp only [panelBlock, ha, decide_false, hne', if_false]
      rfl

instance (cs : List Char) : Decidable (Plain cs) := inferInstanceAs (Decidable (∀ c ∈ cs, _))

theorem drawPanel_eq (u : Uniseg) (m : Model) (p : Panel) {title : String} (ht : p.title = some title) (h : Plain title.toList)
    (hne : title.toList ≠ []) (hb : byteSize title.toList < 65536) (footer : String)
    (hf : footer = "" ∨ Plain footer.toList ∧ footer.toList ≠ [] ∧ byteSize footer.toList < 65536) (area : Rect) :
    drawPanel u m p footer area = (panelBlock (decide (m.activePanel = p)) title footer).render u area := by
  funext b
  unfold drawPanel
  rw [newBlock_eq m p ht h hne hb footer hf]
  rfl

theorem int_plain (n : Int) : Plain (toString n).toList := by
  have hnat : ∀ k : Nat, Plain (Nat.repr k).toList := by
    intro k c hc
    rw [Nat.toList_repr] at hc
    have hd := Nat.isDigit_of_mem_toDigits (by decide) (by decide) hc
    simp only [Char.isDigit, Bool.and_eq_true, decide_eq_true_eq] at hd
    have h1 : (48 : Nat) ≤ c.val.toNat := hd.1
    have h2 : c.val.toNat ≤ (57 : Nat) := hd.2
    have : c.toNat = c.val.toNat := rfl
    omega
  cases n with
  | ofNat k => exact hnat k
  | negSucc k =>
    show Plain ("-" ++ Nat.repr (k + 1)).toList
    rw [String.toList_append]
    intro c hc
    rcases List.mem_append.1 hc with h | h
    · have : c = '-' := by simpa using h
      subst this
      decide
    · exact hnat _ c h

theorem int_length {n : Int} (h1 : -2 ^ 63 ≤ n) (h2 : n < 2 ^ 63) : (toString n).toList.length ≤ 21 := by
  have hnat : ∀ k : Nat, k < 10 ^ 20 → (Nat.repr k).toList.length ≤ 20 := by
    intro k hk
    rw [String.length_toList]
    exact (Nat.length_repr_le_iff (by decide)).2 hk
  cases n with
  | ofNat k =>
    have := hnat k (by simp at h2; omega)
    show (Nat.repr k).toList.length ≤ 21
    omega
  | negSucc k =>
    show ("-" ++ Nat.repr (k + 1)).toList.length ≤ 21
    rw [String.toList_append, List.length_append]
    have := hnat (k + 1) (by omega)
    have : "-".toList.length = 1 := rfl
    omega

theorem Plain.bytes {cs : List Char} (h : Plain cs) : byteSize cs = cs.length := by
  unfold byteSize
  induction cs with
  | nil => rfl
  | cons c cs ih =>
    rw [List.map_cons, List.sum_cons, ih fun d hd => h d (List.mem_cons_of_mem _ hd), List.length_cons]
    have := h c (List.mem_cons_self ..)
    have h1 : c.utf8Size = 1 := by
      unfold Char.utf8Size
      have hv : c.val ≤ 0x7f := by
        show c.val.toNat ≤ 0x7f
        have : c.toNat = c.val.toNat := rfl
        omega
      exact if_pos hv
    omega

theorem status_plain (m : Model) : Plain (statusText m).toList := by
  unfold statusText
  rw [String.toList_append, String.toList_append]
  intro c hc
  rcases List.mem_append.1 hc with h | h
  · rcases List.mem_append.1 h with h | h
    · exact int_plain _ c h
    · have : c = 'x' := by simpa using h
      subst this
      decide
  · exact int_plain _ c h

/-- The numbers are integers of 64 bits. -/
structure Model.Sized (m : Model) : Prop where
  width : -2 ^ 63 ≤ m.width ∧ m.width < 2 ^ 63
  height : -2 ^ 63 ≤ m.height ∧ m.height < 2 ^ 63

theorem status_line (m : Model) (h : m.Sized) : newLineStr (statusText m).toList = textLine .none (statusText m).toList := by
  rw [(status_plain m).newLineStr]
  · rfl
  · unfold statusText
    rw [String.toList_append, String.toList_append]
    simp
  · rw [(status_plain m).bytes]
    unfold statusText
    rw [String.toList_append, String.toList_append, List.length_append, List.length_append]
    have h1 := int_length h.width.1 h.width.2
    have h2 := int_length h.height.1 h.height.2
    have : "x".toList.length = 1 := rfl
    omega

theorem panel_inner (active : Bool) (title footer : String) (r : Rect) (hw : 0 ≤ r.width) (hh : 0 ≤ r.height) :
    (panelBlock active title footer).inner r =
      ⟨min (r.x + 1) (r.x + r.width), min (r.y + 1) (r.y + r.height), max 0 (r.width - 2), max 0 (r.height - 2)⟩ := by
  have h1 : Block.intersects (panelBlock active title footer).borders Block.sideLeft = true := by
    show Block.intersects 15 8 = true; decide
  have h2 : Block.intersects (panelBlock active title footer).borders Block.sideTop = true := by
    show Block.intersects 15 1 = true; decide
  have h3 : Block.intersects (panelBlock active title footer).borders Block.sideRight = true := by
    show Block.intersects 15 2 = true; decide
  have h4 : Block.intersects (panelBlock active title footer).borders Block.sideBottom = true := by
    show Block.intersects 15 4 = true; decide
  unfold Block.inner
  simp only [h1, h2, h3, h4, Bool.true_or, if_true, Rect.right, Rect.bottom]
  ext <;> simp [panelBlock] <;> omega

/-- What the text of a panel does to a cell. -/
def textPaint (text : String) (r : Rect) (q : Position) (c : Cell) : Cell :=
  putSymbol (if r.contains q = true ∧ 1 ≤ q.x - r.x ∧ q.x - r.x ≤ r.width - 2 ∧ q.y - r.y = 1 ∧ 1 ≤ r.height - 2 then
    charAt text (q.x - r.x - 1) else none) c

theorem drawStatus_paints {u : Uniseg} (hu : u.Lawful) (hs : u.Suffix) (hS : Plainly u Symbols) (m : Model) (hm : m.Sized)
    (window area : Rect) (hin : window.In area) (hx : 0 ≤ area.x) :
    Repaints window (fun q c => textPaint (statusText m) area q
      (panelPaint (decide (m.activePanel = panelStatus)) "Status" "" area q c)) (drawStatus u m area) := by
  have hb := newBlock_eq m panelStatus (title := "Status") rfl (by decide) (by decide) (by decide) "" (.inl rfl)
  obtain ⟨h1, h2, h3, h4, h5, h6⟩ := id hin
  have he : drawStatus u m area = fun b =>
      ((panelBlock (decide (m.activePanel = panelStatus)) "Status" "").render u area b).bind
        ((textLine .none (statusText m).toList).render u
          ⟨min (area.x + 1) (area.x + area.width), min (area.y + 1) (area.y + area.height), max 0 (area.width - 2),
            max 0 (area.height - 2)⟩) := by
    funext b
    unfold drawStatus
    rw [hb]
    simp only [Option.bind_eq_bind, Option.bind_some]
    rw [panel_inner _ _ _ _ h5 h6, status_line m hm]
  rw [he]
  refine ((panelBlock_paints hu hs hS _ "Status" "" (by decide) (by decide) window area hin hx).bind
    (textLine_paints hu hs (symbols_ascii hS) .none (status_plain m) window _ ?_)).congr fun q _ c => ?_
  · unfold Rect.In
    simp only
    omega
  unfold textPaint
  congr 1
  generalize hcs : (statusText m).toList = cs
  by_cases hq : area.contains q = true ∧ 1 ≤ q.x - area.x ∧ q.x - area.x ≤ area.width - 2 ∧ q.y - area.y = 1 ∧ 1 ≤ area.height - 2
  · rw [if_pos hq, if_pos]
    · unfold charAt
      rw [if_pos (by omega), hcs]
      congr 1
      unfold Alignment.shown Alignment.before
      simp only
      rw [show q.x - min (area.x + 1) (area.x + area.width) = q.x - area.x - 1 by omega]
      split_ifs <;> first | omega | simp
    · rw [Rect.contains_iff]
      unfold Rect.Mem
      simp only
      omega
  · rw [if_neg hq, if_neg]
    intro h
    apply hq
    rw [Rect.contains_iff] at h ⊢
    unfold Rect.Mem at *
    simp only at h
    omega

/-! ### The footnote -/

/-- A styled symbol, if there is one. -/
def putStyled (s : Option (String × Style)) (c : Cell) : Cell :=
  match s with
  | some (s, st) => c.put s st
  | none => c

theorem spans_styled {u : Uniseg} (hS : Plainly u Symbols) : ∀ spans : List Span, (∀ s ∈ spans, Plain s.content.toList) →
    (⟨Style.new, spans, al⟩ : Line).NarrowText u ∧
    (⟨Style.new, spans, al⟩ : Line).styledClusters u =
      spans.flatMap fun s => s.content.toList.map fun ch => (String.ofList [ch], s.style) := by
  intro spans h
  have hg : ∀ s ∈ spans, u.graphemes s.content = s.content.toList.map fun ch => String.ofList [ch] := by
    intro s hs
    have := (h s hs).graphemes (symbols_ascii hS)
    rwa [String.ofList_toList] at this
  refine ⟨fun s hs c hc => ?_, ?_⟩
  · have := (h s hs).narrow (symbols_ascii hS)
    rw [String.ofList_toList] at this
    exact this c hc
  · unfold Line.styledClusters
    show spans.flatMap _ = _
    induction spans with
    | nil => rfl
    | cons s spans ih =>
      rw [List.flatMap_cons, List.flatMap_cons, ih (fun t ht => h t (List.mem_cons_of_mem _ ht))
        (fun t ht => hg t (List.mem_cons_of_mem _ ht)), hg s (List.mem_cons_self ..), List.map_map]
      rfl

/-- The symbols of the right line of the footnote. -/
def footRightSymbols : List (String × Style) :=
  footRight.spans.flatMap fun s => s.content.toList.map fun ch => (String.ofList [ch], s.style)

theorem footRightSymbols_eq : footRightSymbols =
    let a := (Style.new.withModifier Modifier.underlined).withForeground (.ansi 5)
    let b := (Style.new.withModifier Modifier.underlined).withForeground (.ansi 3)
    let c := Style.new
    [(String.ofList ['F'], a), (String.ofList ['o'], a), (String.ofList ['o'], a), (String.ofList [' '], c),
      (String.ofList ['B'], b), (String.ofList ['a'], b), (String.ofList ['r'], b), (String.ofList [' '], c),
      (String.ofList ['0'], c), (String.ofList ['.'], c), (String.ofList ['0'], c), (String.ofList ['.'], c),
      (String.ofList ['1'], c)] := by decide +kernel

/-- The symbols of the left line of the footnote. -/
def footLeftSymbols : List (String × Style) :=
  "Quit: q / ctrl+c".toList.map fun ch => (String.ofList [ch], Style.new.withForeground (.ansi 4))

/-- What the footnote does to a cell. -/
def footPaint (r : Rect) (q : Position) (c : Cell) : Cell :=
  if r.contains q = true ∧ q.y = r.y then
    putStyled (Alignment.right.shown r.width.toNat footRightSymbols (q.x - r.x).toNat)
      (putStyled (Alignment.left.shown r.width.toNat footLeftSymbols (q.x - r.x).toNat) c)
  else c

theorem drawFootnote_paints {u : Uniseg} (hu : u.Lawful) (hs : u.Suffix) (hS : Plainly u Symbols)
    (window area : Rect) (hin : window.In area) :
    Repaints window (footPaint area) (drawFootnote u area) := by
  obtain ⟨n1, s1⟩ := spans_styled (al := .left) hS footLeft.spans (by decide)
  obtain ⟨n2, s2⟩ := spans_styled (al := .right) hS footRight.spans (by decide)
  have p1 := Repaints.line hu hs footLeft n1 rfl window area hin
  have p2 := Repaints.line hu hs footRight n2 rfl window area hin
  refine (p1.bind p2).congr fun q _ c => ?_
  have s1' : footLeft.styledClusters u = footLeftSymbols := s1.trans rfl
  have s2' : footRight.styledClusters u = footRightSymbols := s2
  rw [s1', s2']
  unfold footPaint putStyled
  by_cases h : area.contains q = true ∧ q.y = area.y
  · simp only [h, and_self, if_true]
    rfl
  · simp only [h, if_false]

theorem right_shown {α : Type} (w : Nat) (cs : List α) (k : Nat) (hk : k < w) :
    Alignment.right.shown w cs k =
      if 0 ≤ (k : Int) - (w - cs.length) then cs[((k : Int) - (w - cs.length)).toNat]? else none := by
  unfold Alignment.shown Alignment.before
  simp only
  by_cases h : cs.length ≤ w
  · rw [if_pos h]
    by_cases h2 : k < w - cs.length
    · rw [if_pos h2, if_neg (by omega)]
    · rw [if_neg h2, if_pos (by omega)]
      congr 1
      omega
  · rw [if_neg h, if_pos (by omega)]
    congr 1
    omega

theorem left_shown {α : Type} (w : Nat) (cs : List α) (k : Nat) : Alignment.left.shown w cs k = cs[k]? := by
  unfold Alignment.shown Alignment.before
  simp

theorem cell_ext {a b : Cell} (h1 : a.symbol = b.symbol) (h2 : a.fg = b.fg) (h3 : a.bg = b.bg) (h4 : a.modifier = b.modifier)
    (h5 : a.skip = b.skip) : a = b := by
  cases a; cases b; simp_all

theorem foot_cell (w i : Nat) (hi : i < w) :
    putStyled (Alignment.right.shown w footRightSymbols i) (putStyled (Alignment.left.shown w footLeftSymbols i) Cell.empty) =
      footCell w i := by
  rw [left_shown, right_shown _ _ _ hi]
  have hl : ((footRightSymbols.length : Nat) : Int) = 13 := by decide
  rw [hl]
  have hleft : footLeftSymbols[i]? = ("Quit: q / ctrl+c".toList[i]?).map fun ch =>
      (String.ofList [ch], Style.new.withForeground (.ansi 4)) := by
    unfold footLeftSymbols; rw [List.getElem?_map]
  rw [hleft]
  unfold footCell charAt
  rw [if_pos (Int.natCast_nonneg i), Int.toNat_natCast]
  have h16 : "Quit: q / ctrl+c".toList.length = 16 := by decide
  generalize "Quit: q / ctrl+c".toList = cs at *
  generalize hk : (i : Int) - (w - 13) = k
  have hk13 : k < 13 := by omega
  by_cases hneg : 0 ≤ k
  · obtain ⟨n, rfl⟩ := Int.eq_ofNat_of_zero_le hneg
    have hn : n < 13 := by omega
    rw [if_pos hneg]
    dsimp only
    rw [if_pos hneg, Int.toNat_natCast]
    clear hk hneg hk13 hl
    have hfoo : "Foo Bar 0.0.1".toList = ['F', 'o', 'o', ' ', 'B', 'a', 'r', ' ', '0', '.', '0', '.', '1'] := by
      decide +kernel
    rw [hfoo, footRightSymbols_eq]
    by_cases h : i < 16
    · rw [show cs[i]? = some (cs[i]'(by omega)) from List.getElem?_eq_getElem (by omega)]
      generalize cs[i]'_ = ch
      have h' : (i : Int) < 16 := by omega
      simp only [Option.map_some, h', if_true]
      interval_cases n <;> (apply cell_ext <;> first | rfl | (simp [putStyled, Cell.put, Cell.setSymbol, Cell.setStyle, Style.withForeground, Style.withModifier, Style.new, Cell.empty, Cell.new] <;> decide))
    · rw [show cs[i]? = none from List.getElem?_eq_none (by omega)]
      have h' : ¬ (i : Int) < 16 := by omega
      simp only [Option.map_none, h', if_false]
      interval_cases n <;> (apply cell_ext <;> first | rfl | (simp [putStyled, Cell.put, Cell.setSymbol, Cell.setStyle, Style.withForeground, Style.withModifier, Style.new, Cell.empty, Cell.new] <;> decide))
  · rw [if_neg hneg]
    dsimp only
    rw [if_neg hneg]
    have h1 : ¬ 4 ≤ k := by omega
    by_cases h : i < 16
    · rw [show cs[i]? = some (cs[i]'(by omega)) from List.getElem?_eq_getElem (by omega)]
      generalize cs[i]'_ = ch
      have h' : (i : Int) < 16 := by omega
      simp only [Option.map_some, h', if_true, hneg, h1]
      simp [putStyled, Cell.put, Cell.setSymbol, Cell.setStyle, Style.withForeground, Style.new, Cell.empty, Cell.new] <;> decide
    · rw [show cs[i]? = none from List.getElem?_eq_none (by omega)]
      have h' : ¬ (i : Int) < 16 := by omega
      simp only [Option.map_none, h', if_false, hneg, h1]
      rfl

end Bento.Lazygit
