import Verif.Lemmas.Text
import Verif.Spec.Text

/-!
# Rows of single-width text
-/

namespace Bento

open Buffer

theorem overlay_nil (b : Buffer) (x y right : Int) (q : Position) :
    b.overlay x y right [] q = b.cellAt q := by
  unfold Buffer.overlay; split_ifs <;> simp

theorem overlay_out (b : Buffer) (x y right : Int) (h : right ≤ x) (fs : List (Cell → Cell))
    (q : Position) : b.overlay x y right fs q = b.cellAt q := by
  unfold Buffer.overlay; rw [if_neg]; omega

theorem overlay_append (b b' : Buffer) (x y right : Int) (fs gs : List (Cell → Cell))
    (h : ∀ q, b'.cellAt q = b.overlay x y right fs q) (q : Position) :
    b'.overlay (x + fs.length) y right gs q = b.overlay x y right (fs ++ gs) q := by
  unfold Buffer.overlay
  rw [h q]
  unfold Buffer.overlay
  by_cases h1 : q.y = y ∧ x ≤ q.x ∧ q.x < right
  · rw [if_pos h1, if_pos h1]
    by_cases h2 : x + fs.length ≤ q.x
    · rw [if_pos ⟨h1.1, h2, h1.2.2⟩, List.getElem?_append_right (by omega),
        List.getElem?_eq_none (l := fs) (by omega)]
      rw [show (q.x - (x + fs.length)).toNat = (q.x - x).toNat - fs.length by omega]
    · rw [if_neg (by omega), List.getElem?_append_left (by omega)]
  · rw [if_neg (by omega), if_neg h1, if_neg h1]

theorem renderLoop_narrow (area : Rect) (y : Int) (hy : area.y ≤ y) (hy' : y < area.bottom) :
    ∀ (gs : List StyledGrapheme) (first : Bool) (x : Int) (b : Buffer), b.WF →
      (∀ q, area.contains q = true → b.area.contains q = true) →
      area.x ≤ x → (first = true ∨ area.x < x) → (∀ g ∈ gs, g.g.width = 1) →
      ∃ b', Span.renderLoop area y gs first x b = some b' ∧ b'.area = b.area ∧ b'.WF ∧
        ∀ q, b'.cellAt q = b.overlay x y area.right (gs.map fun g => Cell.put g.g.symbol g.style) q := by
  intro gs
  induction gs with
  | nil => intro first x b wf _ _ _ _; exact ⟨b, rfl, rfl, wf, fun q => (overlay_nil ..).symm⟩
  | cons gr rest ih =>
    intro first x b wf hsub hx hf hw
    have hgw := hw gr List.mem_cons_self
    unfold Span.renderLoop
    simp only [hgw]
    by_cases hn : x + (1 : Nat) > area.right
    · rw [if_pos hn]
      refine ⟨b, rfl, rfl, wf, fun q => (overlay_out _ _ _ _ (by omega) _ _).symm⟩
    · rw [if_neg hn]
      have hc : area.contains ⟨x, y⟩ = true := contains_of hx (by simp only; omega) hy hy'
      obtain ⟨b1, e1, a1, wf1, c1⟩ := wf.modifyCell_some
        (fun c => (c.setSymbol gr.g.symbol).setStyle gr.style) (hsub _ hc)
      have hput : Span.putGrapheme area first x y gr b = some b1 := by
        unfold Span.putGrapheme
        rcases hf with hf | hf
        · rw [if_pos hf]; exact e1
        · by_cases h : first = true
          · rw [if_pos h]; exact e1
          · rw [if_neg h, if_neg (by omega), if_neg (by omega)]; exact e1
      obtain ⟨b2, e2, a2, wf2, c2⟩ := ih false (x + (1 : Nat)) b1 wf1
        (fun q hq => by rw [a1]; exact hsub q hq) (by omega) (Or.inr (by omega))
        (fun g hg => hw g (List.mem_cons_of_mem _ hg))
      refine ⟨b2, ?_, a2.trans a1, wf2, ?_⟩
      · rw [hput]; exact e2
      · intro q
        rw [c2 q]
        have hb1 : ∀ q, b1.cellAt q = b.overlay x y area.right [Cell.put gr.g.symbol gr.style] q := by
          intro q
          rw [c1 q]
          unfold Buffer.overlay
          by_cases hq : q = ⟨x, y⟩
          · subst hq
            rw [if_pos rfl, if_pos ⟨rfl, Int.le_refl _, by show x < area.right; omega⟩]
            simp only [Int.sub_self, Int.toNat_zero, List.getElem?_cons_zero]
            rfl
          · rw [if_neg hq]
            split_ifs with h
            · have : (q.x - x).toNat ≠ 0 := by
                intro h0
                apply hq
                ext <;> simp only <;> omega
              rw [List.getElem?_eq_none (by simp only [List.length_singleton]; omega)]
            · rfl
        have := overlay_append b b1 x y area.right [Cell.put gr.g.symbol gr.style]
          (rest.map fun g => Cell.put g.g.symbol g.style) hb1 q
        simpa using this

theorem Inside.intersection {b : Buffer} {r : Rect} (h : Inside b r) : r.intersection b.area = r := by
  obtain ⟨h1, h2, h3, h4, h5, h6⟩ := h
  unfold Rect.intersection Rect.right Rect.bottom
  ext <;> simp only <;> omega

theorem narrow_width {u : Uniseg} {s : String} (h : ∀ c ∈ u.graphemes s, u.Narrow c) :
    u.stringWidth s = (u.graphemes s).length := by
  unfold Uniseg.stringWidth
  generalize u.graphemes s = cs at h
  induction cs with
  | nil => rfl
  | cons c cs ih =>
    have := ih (fun c hc => h c (List.mem_cons_of_mem _ hc))
    simp only [List.map_cons, List.sum_cons, List.length_cons, this, (h c List.mem_cons_self).1]
    omega

theorem narrow_new {u : Uniseg} (hu : u.Lawful) {s c : String} (hc : c ∈ u.graphemes s)
    (h : u.Narrow c) : Grapheme.new u c = ⟨c, 1⟩ := by
  unfold Grapheme.new Uniseg.stringWidth
  rw [hu.idem s c hc]
  simp [h.1]

theorem styledGraphemes_narrow {u : Uniseg} (hu : u.Lawful) (s : Span) (style : Style)
    (h : ∀ c ∈ u.graphemes s.content, u.Narrow c) :
    s.styledGraphemes u style =
      (u.graphemes s.content).map fun c => ⟨⟨c, 1⟩, style.patched s.style⟩ := by
  unfold Span.styledGraphemes
  rw [List.filter_eq_self.2 (fun c hc => by simp [(h c hc).2])]
  apply List.map_congr_left
  intro c hc
  rw [narrow_new hu hc (h c hc)]

/-- What drawing the clusters of a span does to the cells. -/
def Span.puts (u : Uniseg) (s : Span) : List (Cell → Cell) :=
  (u.graphemes s.content).map fun c => Cell.put c (Style.new.patched s.style)

theorem span_render_narrow {u : Uniseg} (hu : u.Lawful) (s : Span) (area : Rect) (b : Buffer)
    (wf : b.WF) (hin : Inside b area) (hne : area.width ≠ 0 ∧ area.height ≠ 0)
    (h : ∀ c ∈ u.graphemes s.content, u.Narrow c) :
    ∃ b', s.render u area b = some b' ∧ b'.area = b.area ∧ b'.WF ∧
      ∀ q, b'.cellAt q = b.overlay area.x area.y area.right (s.puts u) q := by
  unfold Span.render
  simp only [hin.intersection]
  rw [if_neg (by simp [Rect.isEmpty, hne.1, hne.2])]
  obtain ⟨h1, h2, h3, h4, h5, h6⟩ := hin
  rw [styledGraphemes_narrow hu s _ h]
  obtain ⟨b', e, a, wf', c⟩ := renderLoop_narrow area area.y (Int.le_refl _)
    (by unfold Rect.bottom; omega)
    ((u.graphemes s.content).map fun c => ⟨⟨c, 1⟩, Style.new.patched s.style⟩) true area.x b wf
    (by
      intro q hq
      rw [Rect.contains_iff] at hq ⊢
      unfold Rect.Mem at *
      omega)
    (Int.le_refl _) (Or.inl rfl) (by
      intro g hg
      obtain ⟨c, _, rfl⟩ := List.mem_map.1 hg
      rfl)
  refine ⟨b', e, a, wf', ?_⟩
  intro q
  rw [c q, List.map_map]
  rfl

theorem suffix_drop {u : Uniseg} (hu : u.Lawful) (hs : u.Suffix) (s : String) : ∀ k,
    u.graphemes (String.join ((u.graphemes s).drop k)) = (u.graphemes s).drop k := by
  intro k
  induction k with
  | zero => rw [List.drop_zero, hu.join]
  | succ k ih =>
    rcases hd : (u.graphemes s).drop k with _ | ⟨c, rest⟩
    · rw [List.drop_eq_nil_iff] at hd
      have h0 : (u.graphemes s).drop (k + 1) = [] := List.drop_eq_nil_iff.2 (by omega)
      rw [h0]
      have := ih
      rw [List.drop_eq_nil_iff.2 hd] at this
      exact this
    · rw [hd] at ih
      have h1 : (u.graphemes s).drop (k + 1) = rest := by
        rw [← List.drop_drop, hd]; rfl
      rw [h1]
      exact hs _ _ _ ih

theorem truncateLoop_narrow {u : Uniseg} (m : Int) (hm : 0 ≤ m) : ∀ (cs : List String),
    (∀ c ∈ cs, u.Narrow c) → m < cs.length →
    Span.truncateLoop u m cs cs.length =
      (String.join (cs.drop (cs.length - m.toNat)),
        u.stringWidth (String.join (cs.drop (cs.length - m.toNat)))) := by
  intro cs
  induction cs with
  | nil => intro _ h; simp at h; omega
  | cons c cs ih =>
    intro h hlt
    have hc := (h c List.mem_cons_self).1
    unfold Span.truncateLoop
    rw [hc, if_neg (by omega)]
    simp only [List.length_cons] at hlt ⊢
    by_cases hle : ((cs.length + 1 : Nat) : Int) - (1 : Nat) ≤ m
    · rw [if_pos hle, show cs.length + 1 - m.toNat = 1 by omega]
      rfl
    · rw [if_neg hle]
      have := ih (fun c hc => h c (List.mem_cons_of_mem _ hc)) (by omega)
      rw [show ((cs.length + 1 : Nat) : Int) - (1 : Nat) = cs.length by omega, this,
        show cs.length + 1 - m.toNat = (cs.length - m.toNat) + 1 by omega]
      rfl

/-- A piece of text that starts at its cell: what `spansAfterWidth` should deliver for single-width
text. -/
def GoodAfter (u : Uniseg) (a : Span.After) : Prop :=
  a.offset = 0 ∧ a.width = (u.graphemes a.span.content).length ∧
    ∀ c ∈ u.graphemes a.span.content, u.Narrow c

theorem afterWidth_narrow {u : Uniseg} (hu : u.Lawful) (hs : u.Suffix) : ∀ (spans : List Span) (k : Nat),
    (∀ s ∈ spans, ∀ c ∈ u.graphemes s.content, u.Narrow c) →
    (∀ a ∈ Span.afterWidth u spans k, GoodAfter u a) ∧
    (Span.afterWidth u spans k).flatMap (fun a => a.span.puts u) =
      (spans.flatMap (Span.puts u)).drop k := by
  intro spans
  induction spans with
  | nil => intro k _; simp [Span.afterWidth]
  | cons s rest ih =>
    intro k h
    have hn := h s List.mem_cons_self
    have hr : ∀ s ∈ rest, ∀ c ∈ u.graphemes s.content, u.Narrow c :=
      fun s hs => h s (List.mem_cons_of_mem _ hs)
    have hw : s.width u = (u.graphemes s.content).length := narrow_width hn
    have hlen : (s.puts u).length = (u.graphemes s.content).length := by simp [Span.puts]
    unfold Span.afterWidth
    simp only [hw]
    by_cases h1 : (k : Int) ≥ (u.graphemes s.content).length
    · rw [if_pos h1]
      rw [show max 0 ((k : Int) - (u.graphemes s.content).length) =
        ((k - (u.graphemes s.content).length : Nat) : Int) by omega]
      obtain ⟨i1, i2⟩ := ih (k - (u.graphemes s.content).length) hr
      refine ⟨i1, ?_⟩
      rw [i2, List.flatMap_cons, List.drop_append,
        List.drop_eq_nil_iff (l := s.puts u).2 (by omega), hlen]
      rfl
    · rw [if_neg h1]
      obtain ⟨i1, i2⟩ := ih 0 hr
      rw [show ((0 : Nat) : Int) = 0 by rfl, List.drop_zero] at i2
      by_cases h2 : ((u.graphemes s.content).length : Int) ≤
          max 0 (((u.graphemes s.content).length : Int) - k)
      · rw [if_pos h2]
        have hk : k = 0 := by omega
        subst hk
        refine ⟨?_, ?_⟩
        · intro a ha
          rcases List.mem_cons.1 ha with rfl | ha
          · exact ⟨rfl, rfl, hn⟩
          · exact i1 a ha
        · rw [List.flatMap_cons, i2]; rfl
      · rw [if_neg h2]
        have hmax : max 0 (((u.graphemes s.content).length : Int) - k) =
          ((u.graphemes s.content).length : Int) - k := by omega
        rw [hmax]
        have htr : Span.truncateStart u s.content (((u.graphemes s.content).length : Int) - k) =
            (String.join ((u.graphemes s.content).drop k), (u.graphemes s.content).length - k) := by
          unfold Span.truncateStart
          rw [narrow_width hn, if_neg (by omega), truncateLoop_narrow _ (by omega) _ hn (by omega)]
          rw [show (u.graphemes s.content).length -
            (((u.graphemes s.content).length : Int) - k).toNat = k by omega]
          rw [Prod.mk.injEq]
          refine ⟨rfl, ?_⟩
          rw [narrow_width, suffix_drop hu hs, List.length_drop]
          rw [suffix_drop hu hs]
          intro c hc
          exact hn c (List.mem_of_mem_drop hc)
        rw [htr]
        refine ⟨?_, ?_⟩
        · intro a ha
          rcases List.mem_cons.1 ha with rfl | ha
          · refine ⟨?_, ?_, ?_⟩
            · simp only; omega
            · simp only [suffix_drop hu hs, List.length_drop]
            · simp only [suffix_drop hu hs]
              intro c hc
              exact hn c (List.mem_of_mem_drop hc)
          · exact i1 a ha
        · rw [List.flatMap_cons, i2, List.flatMap_cons, List.drop_append_of_le_length (by omega)]
          congr 1
          unfold Span.puts
          simp only [suffix_drop hu hs, List.map_drop]

theorem renderAll_narrow {u : Uniseg} (hu : u.Lawful) (R : Int) : ∀ (as : List Span.After) (area : Rect)
    (b : Buffer), b.WF → (Inside b area ∧ area.x + area.width = R ∨ area.width = 0 ∧ R ≤ area.x) →
    area.height ≠ 0 → (∀ a ∈ as, GoodAfter u a) →
    ∃ b', Span.renderAll u as area b = some b' ∧ b'.area = b.area ∧ b'.WF ∧
      ∀ q, b'.cellAt q = b.overlay area.x area.y R (as.flatMap fun a => a.span.puts u) q := by
  intro as
  induction as with
  | nil => intro area b wf _ _ _; exact ⟨b, rfl, rfl, wf, fun q => (overlay_nil ..).symm⟩
  | cons a as ih =>
    intro area b wf hin hh h
    obtain ⟨ho, hw, hn⟩ := h a List.mem_cons_self
    unfold Span.renderAll
    simp only [ho]
    by_cases he : (area.indentX 0).isEmpty = true
    · rw [if_pos he]
      refine ⟨b, rfl, rfl, wf, fun q => (overlay_out _ _ _ _ ?_ _ _).symm⟩
      rcases hin with ⟨hin, hR⟩ | ⟨hin, hR⟩
      · simp [Rect.isEmpty, Rect.indentX] at he
        unfold Inside at hin
        omega
      · exact hR
    · rw [if_neg he]
      have hne : area.width ≠ 0 := by
        intro h0
        apply he
        simp [Rect.isEmpty, Rect.indentX, h0]
      obtain ⟨hin, hR⟩ : Inside b area ∧ area.x + area.width = R := by
        rcases hin with h | h
        · exact h
        · exact absurd h.1 hne
      have hid : area.indentX 0 = area := by
        unfold Inside at hin
        unfold Rect.indentX
        ext <;> simp only <;> omega
      rw [hid]
      obtain ⟨b1, e1, a1, wf1, c1⟩ := span_render_narrow hu a.span area b wf hin ⟨hne, hh⟩ hn
      have hRr : area.right = R := hR
      rw [hRr] at c1
      obtain ⟨b2, e2, a2, wf2, c2⟩ := ih (area.indentX a.width) b1 wf1 (by
          unfold Inside at hin ⊢
          rw [a1]
          unfold Rect.indentX
          simp only
          omega) hh (fun a ha => h a (List.mem_cons_of_mem _ ha))
      refine ⟨b2, ?_, a2.trans a1, wf2, ?_⟩
      · rw [e1]; exact e2
      · intro q
        rw [c2 q, List.flatMap_cons]
        have hl : (a.span.puts u).length = a.width := by
          rw [hw]; simp [Span.puts]
        have := overlay_append b b1 area.x area.y R (a.span.puts u)
          (as.flatMap fun a => a.span.puts u) c1 q
        rw [hl] at this
        exact this

/-- The cells after `SetStyle`. -/
theorem setStyle_cells {b : Buffer} (wf : b.WF) (area : Rect) (style : Style) :
    ∃ b', b.setStyle area style = some b' ∧ b'.area = b.area ∧ b'.WF ∧
      ∀ q, b'.cellAt q = if area.contains q = true then (b.cellAt q).map (Cell.setStyle style)
        else b.cellAt q := by
  unfold Buffer.setStyle
  obtain ⟨b', h1, h2, h3, h4⟩ := wf.foldlM_modify (Cell.setStyle style)
    (Buffer.positionsOf (b.area.intersection area)) (nodup_positionsOf _)
    (fun p hp => ((contains_intersection _ _ _).1 (mem_positionsOf.1 hp)).1)
  refine ⟨b', h1, h2, h3, fun q => ?_⟩
  rw [h4]
  by_cases hm : q ∈ positionsOf (b.area.intersection area)
  · rw [if_pos hm, if_pos ((contains_intersection _ _ _).1 (mem_positionsOf.1 hm)).2]
  · rw [if_neg hm]
    split_ifs with hc
    · have : b.area.contains q ≠ true := fun hb =>
        hm (mem_positionsOf.2 ((contains_intersection _ _ _).2 ⟨hb, hc⟩))
      have hnone : b.cellAt q = none := cellAt_none (by simpa using this)
      rw [hnone]; rfl
    · rfl

/-- `alignShare`, the number of free columns left of a text (or of text columns cut off on the left)
when `d` columns are free (or too many). -/
theorem share_eq (a : Alignment) (d : Nat) : Line.share a d = (Alignment.before a d : Nat) := by
  unfold Line.share Alignment.before
  cases a <;> simp only
  · rfl
  · rfl
  · rw [show max (0 : Int) d = ((d : Nat) : Int) by omega]
    rfl
  · omega

theorem line_clusters_length {u : Uniseg} {l : Line}
    (h : ∀ s ∈ l.spans, ∀ c ∈ u.graphemes s.content, u.Narrow c) :
    l.width u = (l.clusters u).length ∧
      (l.spans.flatMap (Span.puts u)).length = (l.clusters u).length := by
  unfold Line.width Line.clusters
  generalize l.spans = spans at h
  induction spans with
  | nil => exact ⟨rfl, rfl⟩
  | cons s rest ih =>
    obtain ⟨i1, i2⟩ := ih (fun s hs => h s (List.mem_cons_of_mem _ hs))
    have hw : s.width u = (u.graphemes s.content).length := narrow_width (h s List.mem_cons_self)
    simp only [List.map_cons, List.sum_cons, List.flatMap_cons, List.length_append, i1, i2, hw]
    refine ⟨trivial, ?_⟩
    simp [Span.puts]

/-- The symbols after an overlay of text cells. -/
theorem overlay_symbols {b b' : Buffer} (wf : b.WF) {x y right : Int} {fs : List (Cell → Cell)}
    {cs : List String} (hlen : fs.length = cs.length)
    (hfs : ∀ (i : Nat) f s, fs[i]? = some f → cs[i]? = some s → ∀ c, (f c).symbol = s)
    (hin : ∀ q : Position, q.y = y → x ≤ q.x → q.x < right → b.area.contains q = true)
    (h : ∀ q, b'.cellAt q = b.overlay x y right fs q) (q : Position) :
    b'.symbolAt q = if q.y = y ∧ x ≤ q.x ∧ q.x < right then
      (cs[(q.x - x).toNat]?).or (b.symbolAt q) else b.symbolAt q := by
  unfold Buffer.symbolAt
  rw [h q]
  unfold Buffer.overlay
  split_ifs with hc
  · obtain ⟨c, hcell⟩ := wf.cellAt_isSome (hin q hc.1 hc.2.1 hc.2.2)
    rw [hcell]
    by_cases hi : (q.x - x).toNat < fs.length
    · have hi' : (q.x - x).toNat < cs.length := by omega
      rw [List.getElem?_eq_getElem hi, List.getElem?_eq_getElem hi']
      simp only [Option.map_some, Option.some_or, Option.some.injEq]
      exact hfs _ _ _ (List.getElem?_eq_getElem hi) (List.getElem?_eq_getElem hi') c
    · rw [List.getElem?_eq_none (by omega), List.getElem?_eq_none (by omega)]
      rfl
  · rfl

theorem flatMap_puts_symbol {u : Uniseg} (l : Line) (i : Nat) (f : Cell → Cell) (s : String)
    (hf : (l.spans.flatMap (Span.puts u))[i]? = some f) (hs : (l.clusters u)[i]? = some s) (c : Cell) :
    (f c).symbol = s := by
  unfold Line.clusters at hs
  generalize l.spans = spans at hf hs
  induction spans generalizing i with
  | nil => simp at hs
  | cons sp rest ih =>
    rw [List.flatMap_cons] at hf hs
    have hl : (sp.puts u).length = (u.graphemes sp.content).length := by simp [Span.puts]
    by_cases hi : i < (u.graphemes sp.content).length
    · rw [List.getElem?_append_left (by omega)] at hf hs
      unfold Span.puts at hf
      rw [List.getElem?_map, hs] at hf
      simp only [Option.map_some, Option.some.injEq] at hf
      subst hf
      rfl
    · rw [List.getElem?_append_right (by omega)] at hf hs
      rw [hl] at hf
      exact ih _ hf hs

theorem setStyle_symbols {b b' : Buffer} {area : Rect} {style : Style}
    (h : ∀ q, b'.cellAt q = if area.contains q = true then (b.cellAt q).map (Cell.setStyle style)
        else b.cellAt q) (q : Position) : b'.symbolAt q = b.symbolAt q := by
  unfold Buffer.symbolAt
  rw [h q]
  split_ifs
  · cases b.cellAt q <;> rfl
  · rfl

end Bento
