import Verif.Lemmas.Repaints
import Verif.Props.ListWidget
import Verif.Spec.Cells

/-!
# The cells of texts and of the items of lists
-/

namespace Bento

variable {u : Uniseg}

/-- A line of single-width text with a style of its own. -/
theorem Repaints.styledLine (hu : u.Lawful) (hs : u.Suffix) (l : Line) (parent : Alignment) (hl : l.NarrowText u)
    (window area : Rect) (hin : window.In area) :
    Repaints window (fun q c => if area.contains q = true ∧ q.y = area.y then
        l.cellIn u parent area.width.toNat (q.x - area.x).toNat c else c) (l.renderAligned u area parent) := by
  intro b wf ha
  have hinb : Inside b area := by unfold Inside; rw [ha]; exact hin
  obtain ⟨hw, hlen⟩ := line_clusters_length hl
  obtain ⟨h1, h2, h3, h4, h5, h6⟩ := hin
  have idm : ∀ o : Option Cell, o = o.map fun c => c := fun o => by cases o <;> rfl
  by_cases he : area.isEmpty = true
  · refine ⟨b, ?_, wf, ha, fun q => ?_⟩
    · unfold Line.renderAligned
      simp only [hinb.intersection]
      rw [if_pos he]
    · have : ¬ (area.contains q = true ∧ q.y = area.y) := by
        rw [Rect.contains_iff]; unfold Rect.Mem
        simp [Rect.isEmpty] at he
        omega
      simp only [this, if_false]
      exact idm _
  by_cases hz : l.clusters u = []
  · refine ⟨b, ?_, wf, ha, fun q => ?_⟩
    · unfold Line.renderAligned
      simp only [hinb.intersection, hw]
      rw [if_neg he, if_pos (by rw [hz]; rfl)]
    · have : l.styledClusters u = [] := List.eq_nil_of_length_eq_zero (by rw [styledClusters_length, hz]; rfl)
      unfold Line.cellIn
      rw [this, hz]
      unfold Alignment.shown
      simp
  have hw0 : 0 < area.width := by simp [Rect.isEmpty] at he; omega
  have hh0 : 0 < area.height := by simp [Rect.isEmpty] at he; omega
  obtain ⟨b1, b', a1, wf1, c1, e, a2, wf2, c2⟩ := line_cells hu hs l parent hl area b wf hinb hh0 hw0 hz
  refine ⟨b', e, wf2, a2.trans ha, fun q => ?_⟩
  rw [c2 q]
  unfold Buffer.overlay
  rw [puts_styled, c1 q, ← styledClusters_length]
  have hq : (area.contains q = true ∧ q.y = area.y) ↔ q.y = area.y ∧ area.x ≤ q.x ∧ q.x < area.x + area.width := by
    rw [Rect.contains_iff]; unfold Rect.Mem; omega
  have hst : (⟨area.x, area.y, min area.width ((l.styledClusters u).length : Int), 1⟩ : Rect).contains q = true ↔
      (q.y = area.y ∧ area.x ≤ q.x ∧ q.x < area.x + area.width) ∧
        (q.x - area.x).toNat < min area.width.toNat (l.styledClusters u).length := by
    rw [Rect.contains_iff]; unfold Rect.Mem; simp only; omega
  simp only [hq, hst]
  unfold Line.cellIn Alignment.shown
  rw [show (if l.alignment = .none then parent else l.alignment) = l.alignmentIn parent from rfl, ← styledClusters_length]
  generalize l.styledClusters u = cs at *
  by_cases hq : q.y = area.y ∧ area.x ≤ q.x ∧ q.x < area.x + area.width
  · by_cases hs : (q.x - area.x).toNat < min area.width.toNat cs.length
    · simp only [if_pos hq, if_pos (⟨hq, hs⟩ : _ ∧ _), if_pos hs]
      by_cases hfit : cs.length ≤ area.width.toNat
      · simp only [hfit, if_true, List.drop_zero]
        generalize (l.alignmentIn parent).before (area.width.toNat - cs.length) = i at *
        by_cases hi : (q.x - area.x).toNat < i
        · rw [if_neg (by omega)]
          simp only [hi, if_true]
        · rw [if_pos (by omega), show (q.x - (area.x + (i : Nat))).toNat = (q.x - area.x).toNat - i by omega,
            List.getElem?_map]
          simp only [hi, if_false]
          cases cs[(q.x - area.x).toNat - i]? <;> cases b.cellAt q <;> rfl
      · simp only [hfit, if_false]
        generalize (l.alignmentIn parent).before (cs.length - area.width.toNat) = i at *
        rw [if_pos (by omega), List.getElem?_drop, List.getElem?_map,
          show i + (q.x - (area.x + ((0 : Nat) : Int))).toNat = (q.x - area.x).toNat + i by omega]
        cases cs[(q.x - area.x).toNat + i]? <;> cases b.cellAt q <;> rfl
    · simp only [if_pos hq, if_neg (fun h : _ ∧ _ => hs h.2), if_neg hs]
      by_cases hfit : cs.length ≤ area.width.toNat
      · simp only [hfit, if_true, List.drop_zero]
        generalize (l.alignmentIn parent).before (area.width.toNat - cs.length) = i at *
        by_cases hi : (q.x - area.x).toNat < i
        · rw [if_neg (by omega)]
          simp only [hi, if_true]
          exact idm _
        · rw [if_pos (by omega), show (q.x - (area.x + (i : Nat))).toNat = (q.x - area.x).toNat - i by omega,
            List.getElem?_map]
          simp only [hi, if_false]
          cases cs[(q.x - area.x).toNat - i]? <;> cases b.cellAt q <;> rfl
      · omega
  · rw [if_neg (by omega), if_neg (by omega)]
    simp only [hq, if_false]
    exact idm _

theorem renderLines_repaint (hu : u.Lawful) (hs : u.Suffix) (parent : Alignment) (window : Rect) :
    ∀ (ls : List Line) (area : Rect), window.In area → (∀ l ∈ ls, l.NarrowText u) →
      Repaints window (fun q c => if area.contains q = true then
          match ls[(q.y - area.y).toNat]? with
          | some l => l.cellIn u parent area.width.toNat (q.x - area.x).toNat c
          | none => c
        else c) (Text.renderLines u parent ls area.rows) := by
  intro ls
  induction ls with
  | nil =>
    intro area _ _
    have : Text.renderLines u parent [] area.rows = some := by funext b; unfold Text.renderLines; rfl
    rw [this]
    refine (Repaints.nothing window).congr fun q _ c => ?_
    simp
  | cons l ls ih =>
    intro area hin hn
    obtain ⟨h1, h2, h3, h4, h5, h6⟩ := id hin
    by_cases hh : 0 < area.height
    · have e : Text.renderLines u parent (l :: ls) area.rows = fun b =>
          (l.renderAligned u ⟨area.x, area.y, area.width, 1⟩ parent b).bind
            (Text.renderLines u parent ls (⟨area.x, area.y + 1, area.width, area.height - 1⟩ : Rect).rows) := by
        funext b
        rw [rows_cons area hh]
        rfl
      rw [e]
      refine ((Repaints.styledLine hu hs l parent (hn l List.mem_cons_self) window ⟨area.x, area.y, area.width, 1⟩
        (by unfold Rect.In; simp only; omega)).bind (ih ⟨area.x, area.y + 1, area.width, area.height - 1⟩
        (by unfold Rect.In; simp only; omega) (fun l hl => hn l (List.mem_cons_of_mem _ hl)))).congr fun q _ c => ?_
      simp only [Rect.contains_iff, Rect.Mem]
      by_cases hq : area.x ≤ q.x ∧ q.x < area.x + area.width ∧ area.y ≤ q.y ∧ q.y < area.y + area.height
      · rw [if_pos hq]
        by_cases hy : q.y = area.y
        · rw [if_neg (by omega), if_pos (by omega), show (q.y - area.y).toNat = 0 by omega]
          rfl
        · rw [if_pos (by omega), if_neg (by omega),
            show (q.y - area.y).toNat = (q.y - (area.y + 1)).toNat + 1 by omega, List.getElem?_cons_succ]
      · rw [if_neg hq, if_neg (by omega), if_neg (by omega)]
    · have e : Text.renderLines u parent (l :: ls) area.rows = some := by
        funext b
        rw [C02_rows_eq, show area.height.toNat = 0 by omega]
        unfold Text.renderLines
        rfl
      rw [e]
      refine (Repaints.nothing window).congr fun q _ c => ?_
      rw [if_neg]
      rw [Rect.contains_iff]; unfold Rect.Mem; omega

/-- A text of single-width lines. -/
theorem Repaints.styledText (hu : u.Lawful) (hs : u.Suffix) (t : Text) (ht : ∀ l ∈ t.lines, l.NarrowText u)
    (window area : Rect) (hin : window.In area) : Repaints window (t.cellIn u area) (t.render u area) := by
  intro b wf ha
  have hinb : Inside b area := by unfold Inside; rw [ha]; exact hin
  have e : t.render u area b = (b.setStyle area t.style).bind (Text.renderLines u t.alignment t.lines area.rows) := by
    unfold Text.render
    simp only [hinb.intersection, Option.bind_eq_bind]
  rw [e]
  refine (((Repaints.setStyle window area t.style).bind (renderLines_repaint hu hs t.alignment window t.lines area hin
    ht)).congr fun q _ c => ?_) b wf ha
  unfold Text.cellIn
  by_cases hq : area.contains q = true
  · simp only [hq, if_true]
    cases t.lines[(q.y - area.y).toNat]? <;> rfl
  · simp only [hq, if_false, Bool.false_eq_true]

/-- Putting a string of single-width symbols. -/
theorem Repaints.setStringN (window : Rect) (x y : Int) (v : String) (w : Int) (style : Style)
    (hx : window.x ≤ x) (hw : 0 < w) (hr : x + w ≤ window.x + window.width) (hy : window.y ≤ y)
    (hy' : y < window.y + window.height) (hv : ∀ c ∈ u.graphemes v, u.width c = 1) :
    Repaints window (fun q c => if q.y = y ∧ x ≤ q.x ∧ q.x < x + w then
        match (u.graphemes v)[(q.x - x).toNat]? with
        | some s => c.put s style
        | none => c
      else c) (fun b => (b.setStringN u x y v w style).map Prod.fst) := by
  intro b wf ha
  subst ha
  have hm : ∀ g ∈ u.measured v, g.2 = 1 := by
    intro g hg
    unfold Uniseg.measured at hg
    simp only [List.mem_map] at hg
    obtain ⟨c, hc, rfl⟩ := hg
    exact hv c hc
  have hb : budget b x w = w := by
    unfold budget Rect.right; omega
  obtain ⟨b', e, a, wf', c⟩ := C09_setStringN_partial u b wf x y v w style
    (by rw [Rect.contains_iff]; unfold Rect.Mem; simp only; omega) (by omega)
    (fun g hg => by rw [hm g hg]) (noStraddle_of_width_one _ hm _)
  rw [hb] at c
  refine ⟨b', by simp only [e, Option.map_some], wf', a, fun q => ?_⟩
  rw [c]
  by_cases hq : q.y = y ∧ x ≤ q.x ∧ q.x < x + w
  · simp only [hq, and_self, if_true]
    obtain ⟨d, hd⟩ : ∃ d : Nat, q.x - x = d := ⟨(q.x - x).toNat, by omega⟩
    cases b.cellAt q with
    | none => rfl
    | some c0 =>
      simp only [Option.map_some]
      rw [hd, ListWidget.layoutCell_narrow style _ d c0 hm]
      unfold Uniseg.measured
      rw [List.getElem?_map, Int.toNat_natCast]
      cases (u.graphemes v)[d]? <;> rfl
  · simp only [hq, if_false]
    cases b.cellAt q <;> rfl

namespace ListWidget

theorem symbolLoop_repaints (hsp : Blanks u) (hspw : u.width " " = 1) (l : ListWidget)
    (hsym : ∀ c ∈ u.graphemes l.highlightSymbol, u.width c = 1) (isSelected : Bool) (x y w : Int) (style : Style)
    (hw : 0 < w) (window : Rect) (hx : window.x ≤ x) (hr : x + w ≤ window.x + window.width) (hy : window.y ≤ y) :
    ∀ (n j : Nat), y + j + n ≤ window.y + window.height →
      Repaints window (fun q c => if (y + j ≤ q.y ∧ q.y < y + j + n ∧ x ≤ q.x ∧ q.x < x + w) ∧
            (q.x - x).toNat < (u.graphemes l.highlightSymbol).length then
          c.put (if isSelected = true ∧ (q.y = y ∨ l.repeatHighlightSymbol = true) then
            (u.graphemes l.highlightSymbol)[(q.x - x).toNat]?.getD " " else " ") style
        else c) (symbolLoop u l isSelected x y w style n j)
  | 0, j, _ => by
    have : symbolLoop u l isSelected x y w style 0 j = some := by funext b; rfl
    rw [this]
    refine (Repaints.nothing window).congr fun q _ c => ?_
    rw [if_neg (by omega)]
  | n + 1, j, hh => by
    have hwid : u.stringWidth l.highlightSymbol = (u.graphemes l.highlightSymbol).length := by
      unfold Uniseg.stringWidth
      rw [List.map_congr_left hsym]
      simp
    have e : symbolLoop u l isSelected x y w style (n + 1) j = fun b =>
        ((b.setStringN u x (y + j) (if (isSelected && (j == 0 || l.repeatHighlightSymbol)) = true then l.highlightSymbol
      else String.ofList (List.replicate (u.stringWidth l.highlightSymbol) ' ')) w style).map Prod.fst).bind
          (symbolLoop u l isSelected x y w style n (j + 1)) := by
      funext b
      show (Option.bind _ _) = _
      rw [Option.bind_map]
      rfl
    rw [e]
    generalize hv : (if (isSelected && (j == 0 || l.repeatHighlightSymbol)) = true then l.highlightSymbol
      else String.ofList (List.replicate (u.stringWidth l.highlightSymbol) ' ')) = v
    have hvn : ∀ c ∈ u.graphemes v, u.width c = 1 := by
      rw [← hv]
      split_ifs
      · exact hsym
      · rw [hsp]
        intro c hc
        rw [List.eq_of_mem_replicate hc, hspw]
    have hvs : ∀ k : Nat, (u.graphemes v)[k]? = if k < (u.graphemes l.highlightSymbol).length then
            (if isSelected = true ∧ (j = 0 ∨ l.repeatHighlightSymbol = true) then
              (u.graphemes l.highlightSymbol)[k]? else some " ") else none := by
      intro k
      rw [← hv]
      by_cases hc : isSelected = true ∧ (j = 0 ∨ l.repeatHighlightSymbol = true)
      · rw [if_pos hc, if_pos (by simpa using hc)]
        split_ifs with hk
        · rfl
        · exact List.getElem?_eq_none (by omega)
      · rw [if_neg hc, if_neg (by simpa using hc), hsp, hwid, List.getElem?_replicate]
    refine ((Repaints.setStringN window x (y + j) v w style hx hw hr (by omega) (by omega) hvn).bind
      (symbolLoop_repaints hsp hspw l hsym isSelected x y w style hw window hx hr hy n (j + 1)
        (by push_cast at *; omega))).congr fun q _ c => ?_
    rw [hvs]
    push_cast
    by_cases hq : q.y = y + j ∧ x ≤ q.x ∧ q.x < x + w
    · have hrest : ¬ ((y + ((j : Int) + 1) ≤ q.y ∧ q.y < y + ((j : Int) + 1) + n ∧ x ≤ q.x ∧ q.x < x + w) ∧
            (q.x - x).toNat < (u.graphemes l.highlightSymbol).length) := by omega
      rw [if_neg hrest, if_pos hq]
      by_cases hk : (q.x - x).toNat < (u.graphemes l.highlightSymbol).length
      · have hall : (y + (j : Int) ≤ q.y ∧ q.y < y + (j : Int) + ((n : Int) + 1) ∧ x ≤ q.x ∧ q.x < x + w) ∧
            (q.x - x).toNat < (u.graphemes l.highlightSymbol).length := by omega
        rw [if_pos hk, if_pos hall]
        by_cases hc : isSelected = true ∧ (j = 0 ∨ l.repeatHighlightSymbol = true)
        · have hc' : isSelected = true ∧ (q.y = y ∨ l.repeatHighlightSymbol = true) :=
            ⟨hc.1, hc.2.imp (fun h => by omega) id⟩
          rw [if_pos hc, if_pos hc', List.getElem?_eq_getElem hk]
          rfl
        · have hc' : ¬ (isSelected = true ∧ (q.y = y ∨ l.repeatHighlightSymbol = true)) :=
            fun h => hc ⟨h.1, h.2.imp (fun h => by omega) id⟩
          rw [if_neg hc, if_neg hc']
      · rw [if_neg hk, if_neg (fun h => hk h.2)]
    · rw [if_neg hq]
      by_cases hq' : (y + j ≤ q.y ∧ q.y < y + j + (n + 1) ∧ x ≤ q.x ∧ q.x < x + w) ∧
            (q.x - x).toNat < (u.graphemes l.highlightSymbol).length
      · rw [if_pos hq', if_pos (by omega)]
      · rw [if_neg hq', if_neg (by omega)]

/-- One item in its rows. -/
theorem renderItem_repaints (hu : u.Lawful) (hs : u.Suffix) (hsp : Blanks u) (l : ListWidget)
    (hsym : ∀ c ∈ u.graphemes l.highlightSymbol, u.width c = 1) (spacing isSelected : Bool) (item : Text)
    (hitem : ∀ line ∈ item.lines, line.NarrowText u) (window row : Rect) (hin : window.In row) (hw : 0 < row.width)
    (hh : row.height = item.lines.length) :
    Repaints window (fun q c => if row.contains q = true then l.itemCell u spacing isSelected row item q c else c)
      (renderItem u l spacing isSelected row item) := by
  have hwid : u.stringWidth l.highlightSymbol = (u.graphemes l.highlightSymbol).length := by
    unfold Uniseg.stringWidth
    rw [List.map_congr_left hsym]
    simp
  obtain ⟨i1, i2, i3, i4, i5, i6⟩ := id hin
  generalize hn : (if spacing = true then (u.graphemes l.highlightSymbol).length else 0) = n
  -- the text
  have htext : Repaints window (item.cellIn u ⟨row.x + n, row.y, max 0 (row.width - n), row.height⟩)
      (item.render u ⟨row.x + n, row.y, max 0 (row.width - n), row.height⟩) := by
    by_cases hfit : (n : Int) ≤ row.width
    · exact Repaints.styledText hu hs item hitem window _ (by unfold Rect.In; simp only; omega)
    · intro b wf ha
      obtain ⟨b2, e2, a2, wf2, o2⟩ := C32_text_confined u item
        ⟨row.x + n, row.y, max 0 (row.width - n), row.height⟩ b wf
      have hno : ∀ q, ¬ (⟨row.x + n, row.y, max 0 (row.width - n), row.height⟩ : Rect).contains q = true := by
        intro q
        rw [Rect.contains_iff]
        unfold Rect.Mem
        simp only
        omega
      refine ⟨b2, e2, wf2, a2.trans ha, fun q => ?_⟩
      rw [o2 q fun h => hno q h.1]
      unfold Text.cellIn
      simp only [hno q, if_false, Bool.false_eq_true]
      cases b.cellAt q <;> rfl
  have hcol : Repaints window (fun q c => if row.contains q = true ∧ (q.x - row.x).toNat < n then
        c.put (if isSelected = true ∧ (q.y = row.y ∨ l.repeatHighlightSymbol = true) then
            (u.graphemes l.highlightSymbol)[(q.x - row.x).toNat]?.getD " " else " ") (l.style.patched item.style) else c)
      (fun b => if spacing = true then symbolLoop u l isSelected row.x row.y row.width (l.style.patched item.style)
        (itemHeight item) 0 b else some b) := by
    cases spacing with
    | false =>
      simp only [Bool.false_eq_true, if_false] at hn ⊢
      refine (Repaints.nothing window).congr fun q _ c => ?_
      rw [if_neg (by omega)]
    | true =>
      simp only [if_true] at hn ⊢
      refine (symbolLoop_repaints hsp hu.space.2 l hsym isSelected row.x row.y row.width (l.style.patched item.style) hw
        window i1 i2 i3 (itemHeight item) 0 (by unfold itemHeight; push_cast; omega)).congr fun q _ c => ?_
      have : (row.contains q = true ∧ (q.x - row.x).toNat < n) ↔ ((row.y + ((0 : Nat) : Int) ≤ q.y ∧
          q.y < row.y + ((0 : Nat) : Int) + (itemHeight item : Nat) ∧ row.x ≤ q.x ∧ q.x < row.x + row.width) ∧
            (q.x - row.x).toNat < (u.graphemes l.highlightSymbol).length) := by
        rw [Rect.contains_iff]
        unfold Rect.Mem itemHeight
        push_cast
        omega
      simp only [this]
  have hsel : Repaints window (fun q c => if row.contains q = true then
        (if isSelected = true then c.setStyle l.highlightStyle else c) else c)
      (fun b => if isSelected = true then b.setStyle row l.highlightStyle else some b) := by
    cases isSelected with
    | false =>
      simp only [Bool.false_eq_true, if_false]
      exact (Repaints.nothing window).congr fun q _ c => by simp
    | true =>
      simp only [if_true]
      exact Repaints.setStyle window row l.highlightStyle
  have e : renderItem u l spacing isSelected row item = fun b =>
      (((b.setStyle row (l.style.patched item.style)).bind
        (item.render u ⟨row.x + n, row.y, max 0 (row.width - n), row.height⟩)).bind
        (fun b => if spacing = true then symbolLoop u l isSelected row.x row.y row.width (l.style.patched item.style)
        (itemHeight item) 0 b else some b)).bind
        (fun b => if isSelected = true then b.setStyle row l.highlightStyle else some b) := by
    funext b
    have harea : (if spacing = true then (⟨row.x + (u.stringWidth l.highlightSymbol : Int), row.y,
        max 0 (row.width - (u.stringWidth l.highlightSymbol : Int)), row.height⟩ : Rect) else row) =
        ⟨row.x + n, row.y, max 0 (row.width - n), row.height⟩ := by
      rw [hwid, ← hn]
      cases spacing with
      | true => rfl
      | false =>
        simp only [Bool.false_eq_true, if_false]
        ext <;> simp only <;> omega
    unfold renderItem
    rw [← harea]
    simp only [Option.bind_eq_bind, Option.bind_assoc]
    congr 1
    funext b1
    congr 1
    funext b2
    cases spacing <;> rfl
  rw [e]
  refine ((((Repaints.setStyle window row (l.style.patched item.style)).bind htext).bind hcol).bind hsel).congr
    fun q _ c => ?_
  by_cases hq : row.contains q = true
  · simp only [hq, if_true, true_and]
    unfold itemCell
    simp only [hn]
  · have hno : ¬ (⟨row.x + n, row.y, max 0 (row.width - n), row.height⟩ : Rect).contains q = true := by
      rw [Rect.contains_iff] at hq ⊢
      unfold Rect.Mem at *
      simp only
      omega
    simp only [hq, false_and, if_false, Bool.false_eq_true]
    unfold Text.cellIn
    rw [if_neg hno]

/-- All visible items. -/
theorem itemLoop_cells (hu : u.Lawful) (hs : u.Suffix) (hsp : Blanks u) (l : ListWidget)
    (hsym : ∀ c ∈ u.graphemes l.highlightSymbol, u.width c = 1) (spacing : Bool) (sel : Option Int) (area : Rect)
    (hw : 0 < area.width) :
    ∀ (items : List Text) (i cur : Int) (b : Buffer), b.WF → Inside b area → 0 ≤ cur →
      cur + heightBefore items items.length ≤ area.height →
      (∀ t ∈ items, ∀ line ∈ t.lines, line.NarrowText u) →
      ∃ b', itemLoop u l spacing sel area items i cur b = some b' ∧ b'.area = b.area ∧ b'.WF ∧
        (∀ (k : Nat) (t : Text), items[k]? = some t → ∀ q,
          (rowsAt l area (cur + heightBefore items k) t).contains q = true →
          b'.cellAt q = (b.cellAt q).map
            (l.itemCell u spacing (sel == some (i + k)) (rowsAt l area (cur + heightBefore items k) t) t q)) ∧
        (∀ q, (∀ (k : Nat) (t : Text), items[k]? = some t →
            (rowsAt l area (cur + heightBefore items k) t).contains q = false) → b'.cellAt q = b.cellAt q)
  | [], i, cur, b, wf, _, _, _, _ => ⟨b, rfl, rfl, wf, fun k t h => by simp at h, fun _ _ => rfl⟩
  | item :: items, i, cur, b, wf, hin, hcur, hfit, hn => by
    have hin' := hin
    obtain ⟨i1, i2, i3, i4, i5, i6⟩ := hin'
    rw [List.length_cons, heightBefore_succ] at hfit
    have hnn := heightBefore_nonneg items items.length
    have hrow : (⟨area.x, (match l.direction with
        | .bottomToTop => area.bottom - (cur + itemHeight item)
        | .topToBottom => area.y + cur), area.width, itemHeight item⟩ : Rect) = rowsAt l area cur item := by
      unfold rowsAt itemHeight Rect.bottom
      ext
      · rfl
      · cases l.direction <;> simp only <;> omega
      · rfl
      · rfl
    have hy : area.y ≤ (rowsAt l area cur item).y ∧
        (rowsAt l area cur item).y + item.lines.length ≤ area.y + area.height := by
      unfold rowsAt
      cases l.direction <;> simp only <;> omega
    obtain ⟨b1, e1, wf1, a1, c1⟩ := renderItem_repaints hu hs hsp l hsym spacing (sel == some i) item
      (hn item (by simp)) b.area (rowsAt l area cur item)
      (by unfold Rect.In; refine ⟨i1, i2, by omega, ?_, i5, by simp [rowsAt]⟩
          show (rowsAt l area cur item).y + (item.lines.length : Int) ≤ _
          omega)
      hw rfl b wf rfl
    obtain ⟨b2, e2, a2, wf2, s2, o2⟩ := itemLoop_cells hu hs hsp l hsym spacing sel area hw items (i + 1)
      (cur + item.lines.length) b1 wf1 (by unfold Inside at *; rw [a1]; exact hin) (by omega) (by omega)
      (fun t ht => hn t (by simp [ht]))
    have hdisj : ∀ (k : Nat) (t : Text), items[k]? = some t → ∀ q, (rowsAt l area cur item).contains q = true →
        (rowsAt l area (cur + item.lines.length + heightBefore items k) t).contains q = false := by
      intro k t ht q hq
      rw [← Bool.not_eq_true, Rect.contains_iff]
      rw [Rect.contains_iff] at hq
      have := heightBefore_nonneg items k
      unfold Rect.Mem rowsAt at *
      cases hd : l.direction <;> simp only [hd] at * <;> omega
    have hsucc : ∀ k, cur + heightBefore (item :: items) (k + 1) = cur + item.lines.length + heightBefore items k := by
      intro k; rw [heightBefore_succ]; omega
    have out1 : ∀ q, (rowsAt l area cur item).contains q = false → b1.cellAt q = b.cellAt q := by
      intro q hq
      rw [c1]
      simp only [hq, Bool.false_eq_true, if_false]
      cases b.cellAt q <;> rfl
    refine ⟨b2, ?_, a2.trans a1, wf2, ?_, ?_⟩
    · have : itemLoop u l spacing sel area (item :: items) i cur b =
          (renderItem u l spacing (sel == some i) (rowsAt l area cur item) item b).bind
            (itemLoop u l spacing sel area items (i + 1) (cur + item.lines.length)) := by
        rw [← hrow]; rfl
      rw [this, e1]
      exact e2
    · intro k t ht q hq
      cases k with
      | zero =>
        simp only [List.getElem?_cons_zero, Option.some.injEq] at ht
        subst ht
        rw [heightBefore_zero, Int.add_zero] at hq ⊢
        rw [o2 q fun k t ht => hdisj k t ht q hq, show i + ((0 : Nat) : Int) = i by omega, c1]
        simp only [hq, if_true]
      | succ k =>
        simp only [List.getElem?_cons_succ] at ht
        rw [hsucc] at hq ⊢
        have hout : (rowsAt l area cur item).contains q = false := by
          by_contra h
          have := hdisj k t ht q (by simpa using h)
          rw [hq] at this
          cases this
        rw [show i + ((k + 1 : Nat) : Int) = i + 1 + (k : Int) by push_cast; omega, s2 k t ht q hq, out1 q hout]
    · intro q hq
      rw [o2 q, out1 q]
      · have := hq 0 item rfl
        rwa [heightBefore_zero, Int.add_zero] at this
      · intro k t ht
        have := hq (k + 1) t (by simpa using ht)
        rwa [hsucc] at this

/-- The items of a list in their area. -/
theorem renderItems_cells (hu : u.Lawful) (hs : u.Suffix) (hsp : Blanks u) (l : ListWidget)
    (hsym : ∀ c ∈ u.graphemes l.highlightSymbol, u.width c = 1) (hne : l.items ≠ [])
    (hn : ∀ t ∈ l.items, ∀ line ∈ t.lines, line.NarrowText u) (hp : 0 ≤ l.scrollPadding) (area : Rect)
    (hw : 0 < area.width) (hh : 0 < area.height) (s : State) (hg : s.Good) :
    ∃ f n : Nat,
      getItemsBounds (l.items.map itemHeight) l.scrollPadding (drawnSelection l s) s.offset area.height =
        some ((f : Int), ((f + n : Nat) : Int)) ∧
      (∀ (k : Nat) (t : Text), ((l.items.drop f).take n)[k]? = some t → ∀ q,
        (rowsOf l area ((l.items.drop f).take n) k t).contains q = true → area.contains q = true) ∧
      ∀ b : Buffer, b.WF → Inside b area → ∃ b' : Buffer,
      renderItems u l area b s = some (b', ⟨f, drawnSelection l s⟩) ∧ b'.area = b.area ∧ b'.WF ∧
      (∀ q, (∀ (k : Nat) (t : Text), ((l.items.drop f).take n)[k]? = some t →
        (rowsOf l area ((l.items.drop f).take n) k t).contains q = false) → b'.cellAt q = b.cellAt q) ∧
      (∀ (k : Nat) (t : Text), ((l.items.drop f).take n)[k]? = some t → ∀ q,
        (rowsOf l area ((l.items.drop f).take n) k t).contains q = true →
        b'.cellAt q = (b.cellAt q).map (l.itemCell u (l.highlightSpacing.shouldAdd s.selected.isSome)
          (drawnSelection l s == some (f + k : Nat)) (rowsOf l area ((l.items.drop f).take n) k t) t q)) := by
  have hlen : 0 < l.items.length := List.length_pos_of_ne_nil hne
  obtain ⟨g1, g2⟩ := hg
  have hsel : ∀ i ∈ drawnSelection l s, 0 ≤ i := by
    intro i hi
    unfold drawnSelection at hi
    simp only [Option.mem_def, Option.map_eq_some_iff] at hi
    obtain ⟨j, hj, rfl⟩ := hi
    have := g2 j hj
    omega
  obtain ⟨f, e, he, h1, h2, h3⟩ := C40_window (l.items.map itemHeight) (by simpa using hlen) l.scrollPadding area.height
    s.offset (drawnSelection l s) hp (by omega) g1 hsel
  obtain ⟨n, rfl⟩ : ∃ n, e = f + n := ⟨e - f, by omega⟩
  refine ⟨f, n, he, ?_, fun b wf hin => ?_⟩
  · intro k t ht q hq
    have := heightBefore_item _ k t ht
    rw [heightBefore_window] at this
    have := heightBefore_nonneg ((l.items.drop f).take n) k
    rw [Rect.contains_iff] at hq ⊢
    rw [rowsOf_eq] at hq
    unfold Rect.Mem rowsAt at *
    cases hd : l.direction <;> simp only [hd] at * <;> omega
  obtain ⟨b', e', a', wf', s', o'⟩ := itemLoop_cells hu hs hsp l hsym (l.highlightSpacing.shouldAdd s.selected.isSome)
    (drawnSelection l s) area hw ((l.items.drop f).take n) f 0 b wf hin (by omega)
    (by rw [heightBefore_window]; omega)
    (fun t ht => hn t (List.mem_of_mem_drop (List.mem_of_mem_take ht)))
  have hstate : clampSelection l.items.length s = (⟨s.offset, drawnSelection l s⟩ : State) := by
    unfold drawnSelection clampSelection
    cases hsel' : s.selected with
    | none => cases s; simp only at hsel'; subst hsel'; rfl
    | some i =>
      simp only [Option.map_some]
      split_ifs with hi
      · unfold State.select
        simp only [State.mk.injEq, Option.some.injEq, true_and]
        omega
      · cases s; simp only at hsel'; subst hsel'
        simp only [State.mk.injEq, Option.some.injEq, true_and]
        omega
  refine ⟨b', ?_, a', wf', ?_, ?_⟩
  · unfold renderItems
    have hempty : area.isEmpty = false := by simp [Rect.isEmpty]; omega
    rw [hempty, if_neg (by simp; omega)]
    simp only [hstate, he, Option.bind_eq_bind, Option.bind_some]
    rw [if_neg (by omega), show ((f : Int)).toNat = f by omega,
      show (((f + n : Nat) : Int) - (f : Int)).toNat = n by omega]
    have hsome : (drawnSelection l s).isSome = s.selected.isSome := by
      unfold drawnSelection; simp
    rw [hsome, e']
    rfl
  · intro q hq
    refine o' q fun k t ht => ?_
    rw [Int.zero_add, ← rowsOf_eq]
    exact hq k t ht
  · intro k t ht q hq
    have := s' k t ht q (by rw [Int.zero_add, ← rowsOf_eq]; exact hq)
    rw [Int.zero_add, ← rowsOf_eq] at this
    exact this

end ListWidget

end Bento
