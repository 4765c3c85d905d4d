import Verif.Lemmas.TextRow
import Verif.Lemmas.Control
import Verif.Spec.WideText

/-!
# Rows of text that takes one or more columns a symbol
-/

namespace Bento

open Buffer

/-- A symbol, its style and its width. -/
structure Glyph where
  symbol : String
  style : Style
  width : Nat

namespace Glyph

/-- The columns of a list of symbols. -/
def total (ts : List Glyph) : Nat := (ts.map Glyph.width).sum

/-- What happens to column `k` when the symbols are drawn from column `x` on, with the limit `R`. -/
def stamp (R : Int) : Int → List Glyph → Int → Option (Cell → Cell)
  | _, [], _ => none
  | x, t :: ts, k =>
    if R < x + t.width then none
    else if x ≤ k ∧ k < x + t.width then some (if k = x then Cell.put t.symbol t.style else Cell.reset)
    else stamp R (x + t.width) ts k

/-- All symbols have a width. -/
def Pos (ts : List Glyph) : Prop := ∀ t ∈ ts, 1 ≤ t.width

theorem total_append (ts us : List Glyph) : total (ts ++ us) = total ts + total us := by
  simp [total]

theorem total_cons (t : Glyph) (ts : List Glyph) : total (t :: ts) = t.width + total ts := by
  simp [total]

theorem stamp_beyond {R x : Int} {ts : List Glyph} (h : Pos ts) (hx : R ≤ x) (k : Int) : stamp R x ts k = none := by
  cases ts with
  | nil => rfl
  | cons t ts =>
    have := h t List.mem_cons_self
    unfold stamp
    rw [if_pos (by omega)]

theorem stamp_range {R : Int} : ∀ (ts : List Glyph) (x k : Int) (f : Cell → Cell), stamp R x ts k = some f →
    x ≤ k ∧ k < x + total ts ∧ k < R := by
  intro ts
  induction ts with
  | nil => intro x k f h; cases h
  | cons t ts ih =>
    intro x k f h
    unfold stamp at h
    rw [total_cons]
    by_cases h1 : R < x + t.width
    · rw [if_pos h1] at h; cases h
    rw [if_neg h1] at h
    by_cases h2 : x ≤ k ∧ k < x + t.width
    · push_cast; omega
    · rw [if_neg h2] at h
      have := ih _ _ _ h
      push_cast; omega

theorem stamp_append {R : Int} : ∀ (ts us : List Glyph), Pos ts → Pos us → ∀ (x k : Int),
    stamp R x (ts ++ us) k = (stamp R x ts k).or (stamp R (x + total ts) us k) := by
  intro ts
  induction ts with
  | nil => intro us _ _ x k; simp [stamp, total]
  | cons t ts ih =>
    intro us ht hu x k
    rw [List.cons_append, stamp, stamp, total_cons]
    by_cases h1 : R < x + t.width
    · rw [if_pos h1, if_pos h1, stamp_beyond hu (by push_cast; omega)]; rfl
    · rw [if_neg h1, if_neg h1]
      by_cases h2 : x ≤ k ∧ k < x + t.width
      · rw [if_pos h2, if_pos h2]; rfl
      · rw [if_neg h2, if_neg h2, ih us (fun t h => ht t (List.mem_cons_of_mem _ h)) hu]
        push_cast
        rw [Int.add_assoc]

/-- The cells of the buffer after the symbols are drawn in row `y`. -/
def stamped (b : Buffer) (y R x : Int) (ts : List Glyph) (q : Position) : Option Cell :=
  if q.y = y then
    match stamp R x ts q.x with
    | some f => (b.cellAt q).map f
    | none => b.cellAt q
  else b.cellAt q

theorem stamped_nil (b : Buffer) (y R x : Int) (q : Position) : stamped b y R x [] q = b.cellAt q := by
  unfold stamped stamp; split <;> rfl

theorem stamped_beyond (b : Buffer) {y R x : Int} {ts : List Glyph} (h : Pos ts) (hx : R ≤ x) (q : Position) :
    stamped b y R x ts q = b.cellAt q := by
  unfold stamped; rw [stamp_beyond h hx]; split <;> rfl

theorem stamped_append {b b' : Buffer} {y R x : Int} {ts us : List Glyph} (ht : Pos ts) (hu : Pos us)
    (h : ∀ q, b'.cellAt q = stamped b y R x ts q) (q : Position) :
    stamped b' y R (x + total ts) us q = stamped b y R x (ts ++ us) q := by
  unfold stamped
  rw [h q]
  unfold stamped
  by_cases hy : q.y = y
  · simp only [hy, if_true]
    rw [stamp_append ts us ht hu]
    cases h1 : stamp R x ts q.x with
    | none => rfl
    | some f =>
      have r1 := stamp_range _ _ _ _ h1
      cases h2 : stamp R (x + total ts) us q.x with
      | none => rfl
      | some g =>
        have r2 := stamp_range _ _ _ _ h2
        omega
  · simp only [hy, if_false]

end Glyph

theorem hideLoop_cells (y : Int) : ∀ (n : Nat) (x : Int) (b : Buffer), b.WF →
    (∀ i : Nat, i < n → b.area.contains ⟨x + i, y⟩ = true) →
    ∃ b', Span.hideLoop y n x b = some b' ∧ b'.area = b.area ∧ b'.WF ∧
      ∀ q, b'.cellAt q = if q.y = y ∧ x ≤ q.x ∧ q.x < x + n then (b.cellAt q).map Cell.reset else b.cellAt q := by
  intro n
  induction n with
  | zero => intro x b wf _; exact ⟨b, rfl, rfl, wf, fun q => by rw [if_neg (by omega)]⟩
  | succ n ih =>
    intro x b wf h
    obtain ⟨b1, e1, a1, wf1, c1⟩ := wf.modifyCell_some Cell.reset (by simpa using h 0 (by omega))
    obtain ⟨b2, e2, a2, wf2, c2⟩ := ih (x + 1) b1 wf1 (fun i hi => by
      rw [a1]
      have := h (i + 1) (by omega)
      rwa [show x + ((i + 1 : Nat) : Int) = x + 1 + (i : Int) by push_cast; omega] at this)
    refine ⟨b2, by simp only [Span.hideLoop, e1, Option.bind_eq_bind, Option.bind_some, e2], a2.trans a1, wf2, ?_⟩
    intro q
    rw [c2 q, c1 q]
    by_cases hq : q = ⟨x, y⟩
    · subst hq
      rw [if_neg (by simp only; omega), if_pos rfl, if_pos ⟨rfl, Int.le_refl _, by simp only; omega⟩]
    · rw [if_neg hq]
      have hx : ¬(q.y = y ∧ q.x = x) := fun h => hq (by ext <;> simp [h.1, h.2])
      by_cases hr : q.y = y ∧ x + 1 ≤ q.x ∧ q.x < x + 1 + n
      · rw [if_pos hr, if_pos (by push_cast; omega)]
      · rw [if_neg hr, if_neg (by push_cast; omega)]

/-- The symbol that a grapheme puts on the screen. -/
def StyledGrapheme.tok (g : StyledGrapheme) : Glyph := ⟨g.g.symbol, g.style, g.g.width⟩

theorem renderLoop_wide (area : Rect) (y : Int) (hy : area.y ≤ y) (hy' : y < area.bottom) :
    ∀ (gs : List StyledGrapheme) (first : Bool) (x : Int) (b : Buffer), b.WF →
      (∀ q, area.contains q = true → b.area.contains q = true) →
      area.x ≤ x → (first = true ∨ area.x < x) → (∀ g ∈ gs, 1 ≤ g.g.width) →
      ∃ b', Span.renderLoop area y gs first x b = some b' ∧ b'.area = b.area ∧ b'.WF ∧
        ∀ q, b'.cellAt q = Glyph.stamped b y area.right x (gs.map StyledGrapheme.tok) q := by
  intro gs
  induction gs with
  | nil => intro first x b wf _ _ _ _; exact ⟨b, rfl, rfl, wf, fun q => (Glyph.stamped_nil ..).symm⟩
  | cons gr rest ih =>
    intro first x b wf hsub hx hf hw
    have hgw := hw gr List.mem_cons_self
    have hpos : Glyph.Pos (rest.map StyledGrapheme.tok) := by
      intro t ht
      obtain ⟨g, hg, rfl⟩ := List.mem_map.1 ht
      exact hw g (List.mem_cons_of_mem _ hg)
    unfold Span.renderLoop
    by_cases hn : x + (gr.g.width : Int) > area.right
    · simp only
      rw [if_pos hn]
      refine ⟨b, rfl, rfl, wf, fun q => ?_⟩
      rw [List.map_cons]
      unfold Glyph.stamped Glyph.stamp
      rw [if_pos (show area.right < x + (gr.tok.width : Int) from hn)]
      split <;> rfl
    · simp only
      rw [if_neg hn]
      have hc : area.contains ⟨x, y⟩ = true := contains_of hx (by simp only; omega) hy hy'
      obtain ⟨b1, e1, a1, wf1, c1⟩ := wf.modifyCell_some
        (fun c => (c.setSymbol gr.g.symbol).setStyle gr.style) (hsub _ hc)
      have hput : Span.putGrapheme area first x y gr b = some b1 := by
        unfold Span.putGrapheme
        rcases hf with hf | hf
        · rw [if_pos hf]; exact e1
        · by_cases h : first = true
          · rw [if_pos h]; exact e1
          · rw [if_neg h, if_neg (by omega), if_neg (by omega)]; exact e1
      obtain ⟨b2, e2, a2, wf2, c2⟩ := hideLoop_cells y (gr.g.width - 1) (x + 1) b1 wf1 (by
        intro i hi
        rw [a1]
        exact hsub _ (contains_of (by simp only; omega) (by simp only; omega) hy hy'))
      obtain ⟨b3, e3, a3, wf3, c3⟩ := ih false (x + (gr.g.width : Int)) b2 wf2
        (fun q hq => by rw [a2, a1]; exact hsub q hq) (by omega) (Or.inr (by omega))
        (fun g hg => hw g (List.mem_cons_of_mem _ hg))
      refine ⟨b3, ?_, a3.trans (a2.trans a1), wf3, ?_⟩
      · rw [hput, Option.bind_eq_bind, Option.bind_some, e2]; exact e3
      · intro q
        rw [c3 q]
        have hb2 : ∀ q, b2.cellAt q = Glyph.stamped b y area.right x [gr.tok] q := by
          intro q
          rw [c2 q, c1 q]
          unfold Glyph.stamped Glyph.stamp
          rw [if_neg (show ¬ area.right < x + (gr.tok.width : Int) from hn)]
          have ht : gr.tok.width = gr.g.width := rfl
          rw [ht]
          by_cases hq : q = ⟨x, y⟩
          · subst hq
            rw [if_neg (by simp only; omega), if_pos rfl, if_pos rfl, if_pos (by simp only; omega)]
            simp only [if_true]
            rfl
          · rw [if_neg hq]
            have hx : ¬(q.y = y ∧ q.x = x) := fun h => hq (by ext <;> simp [h.1, h.2])
            by_cases hqy : q.y = y
            · simp only [hqy, true_and, if_true] at hx ⊢
              by_cases hr : x + 1 ≤ q.x ∧ q.x < x + 1 + ((gr.g.width - 1 : Nat) : Int)
              · rw [if_pos hr, if_pos (by omega), if_neg (by omega)]
              · rw [if_neg hr, if_neg (by omega)]
                rfl
            · rw [if_neg (fun h => hqy h.1), if_neg hqy]
        have := Glyph.stamped_append (ts := [gr.tok]) (us := rest.map StyledGrapheme.tok)
          (by intro t ht; rw [List.mem_singleton] at ht; subst ht; exact hgw) hpos hb2 q
        simpa [Glyph.total, StyledGrapheme.tok] using this

theorem visible_iff {u : Uniseg} {c : String} (h : u.Visible c) : c.toList.any isControlRune = false := by
  rw [List.any_eq_false]
  intro r hr
  have := h.2 r hr
  rw [← isControlRune_iff] at this
  simpa using this

/-- The symbols of a span. -/
def Span.glyphs (u : Uniseg) (s : Span) : List Glyph :=
  (u.graphemes s.content).map fun c => ⟨c, Style.new.patched s.style, u.width c⟩

theorem Span.glyphs_pos {u : Uniseg} {s : Span} (h : ∀ c ∈ u.graphemes s.content, u.Visible c) : Glyph.Pos (s.glyphs u) := by
  intro t ht
  obtain ⟨c, hc, rfl⟩ := List.mem_map.1 ht
  exact (h c hc).1

theorem Span.glyphs_total (u : Uniseg) (s : Span) : Glyph.total (s.glyphs u) = u.stringWidth s.content := by
  unfold Glyph.total Span.glyphs Uniseg.stringWidth
  rw [List.map_map]
  rfl

theorem span_render_wide {u : Uniseg} (hu : u.Lawful) (s : Span) (area : Rect) (b : Buffer)
    (wf : b.WF) (hin : Inside b area) (hne : area.width ≠ 0 ∧ area.height ≠ 0)
    (h : ∀ c ∈ u.graphemes s.content, u.Visible c) :
    ∃ b', s.render u area b = some b' ∧ b'.area = b.area ∧ b'.WF ∧
      ∀ q, b'.cellAt q = Glyph.stamped b area.y area.right area.x (s.glyphs u) q := by
  unfold Span.render
  simp only [hin.intersection]
  rw [if_neg (by simp [Rect.isEmpty, hne.1, hne.2])]
  obtain ⟨h1, h2, h3, h4, h5, h6⟩ := hin
  have hst : (s.styledGraphemes u Style.new).map StyledGrapheme.tok = s.glyphs u := by
    unfold Span.styledGraphemes Span.glyphs
    rw [List.filter_eq_self.2 (fun c hc => by simp [visible_iff (h c hc)]), List.map_map]
    apply List.map_congr_left
    intro c hc
    simp only [Function.comp, StyledGrapheme.tok, Grapheme.new, Uniseg.stringWidth, hu.idem _ c hc]
    simp
  obtain ⟨b', e, a, wf', c⟩ := renderLoop_wide area area.y (Int.le_refl _)
    (by unfold Rect.bottom; omega) (s.styledGraphemes u Style.new) true area.x b wf
    (by
      intro q hq
      rw [Rect.contains_iff] at hq ⊢
      unfold Rect.Mem at *
      omega)
    (Int.le_refl _) (Or.inl rfl) (by
      intro g hg
      have : g.tok ∈ s.glyphs u := by rw [← hst]; exact List.mem_map_of_mem hg
      exact Span.glyphs_pos h _ this)
  exact ⟨b', e, a, wf', fun q => by rw [c q, hst]⟩

theorem Uniseg.columns_append (u : Uniseg) (cs ds : List String) : u.columns (cs ++ ds) = u.columns cs + u.columns ds := by
  simp [Uniseg.columns]

theorem columns_split (u : Uniseg) (cs : List String) (n : Nat) :
    u.columns (cs.take n) + u.columns (cs.drop n) = u.columns cs := by
  rw [← Uniseg.columns_append, List.take_append_drop]

theorem truncateLoop_wide {u : Uniseg} (m : Int) : ∀ (cs : List String), (∀ c ∈ cs, 1 ≤ u.width c) → 0 ≤ m →
    m < u.columns cs →
    ∃ n, n ≤ cs.length ∧ Span.truncateLoop u m cs (u.columns cs) =
        (String.join (cs.drop n), u.stringWidth (String.join (cs.drop n))) ∧
      (u.columns (cs.drop n) : Int) ≤ m ∧ ∀ i, i < n → m < u.columns (cs.drop i) := by
  intro cs
  induction cs with
  | nil => intro _ h0 h; simp [Uniseg.columns] at h; omega
  | cons c cs ih =>
    intro hp h0 hlt
    have hc := hp c List.mem_cons_self
    have hcol : u.columns (c :: cs) = u.width c + u.columns cs := by simp [Uniseg.columns]
    have e : ((u.columns (c :: cs) : Nat) : Int) - (u.width c : Nat) = (u.columns cs : Nat) := by omega
    unfold Span.truncateLoop
    rw [if_neg (by omega), e]
    by_cases h : (u.columns cs : Int) ≤ m
    · rw [if_pos h]
      refine ⟨1, by simp, rfl, h, ?_⟩
      intro i hi
      have : i = 0 := by omega
      subst this
      exact hlt
    · rw [if_neg h]
      obtain ⟨n, h1, h2, h3, h4⟩ := ih (fun c h => hp c (List.mem_cons_of_mem _ h)) h0 (by omega)
      refine ⟨n + 1, by simp only [List.length_cons]; omega, h2, h3, ?_⟩
      intro i hi
      cases i with
      | zero => exact hlt
      | succ i => exact h4 i (by omega)

/-- A piece of visible text, of the width that `spansAfterWidth` says. -/
def WideAfter (u : Uniseg) (a : Span.After) : Prop :=
  a.width = Glyph.total (a.span.glyphs u) ∧ ∀ c ∈ u.graphemes a.span.content, u.Visible c

theorem glyphs_take_total (u : Uniseg) (s : Span) (n : Nat) :
    Glyph.total ((s.glyphs u).take n) = u.columns ((u.graphemes s.content).take n) := by
  unfold Glyph.total Span.glyphs Uniseg.columns
  rw [← List.map_take, List.map_map]
  rfl

theorem total_take_lt {ts : List Glyph} (h : Glyph.Pos ts) {i : Nat} (hi : i < ts.length) :
    Glyph.total (ts.take i) < Glyph.total ts := by
  have : Glyph.total ts = Glyph.total (ts.take i) + Glyph.total (ts.drop i) := by
    rw [← Glyph.total_append, List.take_append_drop]
  rw [this]
  have h2 : 0 < Glyph.total (ts.drop i) := by
    rw [List.drop_eq_getElem_cons hi, Glyph.total_cons]
    have := h _ (List.getElem_mem hi)
    omega
  omega

/-- What `spansAfterWidth` delivers: the symbols from number `n` on, the first one that begins at column `k` of the
text or behind it; the offset is the distance. -/
theorem afterWidth_wide {u : Uniseg} (hu : u.Lawful) (hs : u.Suffix) : ∀ (spans : List Span) (k : Nat),
    (∀ s ∈ spans, ∀ c ∈ u.graphemes s.content, u.Visible c) →
    ∃ n, n ≤ (spans.flatMap (Span.glyphs u)).length ∧
      (∀ i, i < n → Glyph.total ((spans.flatMap (Span.glyphs u)).take i) < k) ∧
      (Span.afterWidth u spans k).flatMap (fun a => a.span.glyphs u) = (spans.flatMap (Span.glyphs u)).drop n ∧
      (∀ a ∈ Span.afterWidth u spans k, WideAfter u a) ∧
      (Span.afterWidth u spans k = [] ∨ ∃ a rest, Span.afterWidth u spans k = a :: rest ∧
        a.offset = (Glyph.total ((spans.flatMap (Span.glyphs u)).take n) : Int) - k ∧ 0 ≤ a.offset ∧
        ∀ r ∈ rest, r.offset = 0) := by
  intro spans
  induction spans with
  | nil => intro k _; exact ⟨0, by simp [Span.afterWidth]⟩
  | cons s rest ih =>
    intro k h
    have hv := h s List.mem_cons_self
    have hr : ∀ s ∈ rest, ∀ c ∈ u.graphemes s.content, u.Visible c := fun s hs => h s (List.mem_cons_of_mem _ hs)
    have hpos := Span.glyphs_pos hv
    have hlen : (s.glyphs u).length = (u.graphemes s.content).length := by simp [Span.glyphs]
    have hcols : u.stringWidth s.content = u.columns (u.graphemes s.content) := rfl
    have hw : s.width u = Glyph.total (s.glyphs u) := (Span.glyphs_total u s).symm
    rw [List.flatMap_cons]
    unfold Span.afterWidth
    simp only [hw]
    by_cases h1 : (k : Int) ≥ (Glyph.total (s.glyphs u) : Nat)
    · rw [if_pos h1]
      rw [show max 0 ((k : Int) - (Glyph.total (s.glyphs u) : Nat)) = ((k - Glyph.total (s.glyphs u) : Nat) : Int) by omega]
      obtain ⟨n, i0, i1, i2, i3, i4⟩ := ih (k - Glyph.total (s.glyphs u)) hr
      refine ⟨(s.glyphs u).length + n, by rw [List.length_append]; omega, ?_, ?_, i3, ?_⟩
      · intro i hi
        rw [List.take_append]
        by_cases hil : i < (s.glyphs u).length
        · rw [show i - (s.glyphs u).length = 0 by omega, List.take_zero, List.append_nil]
          have := total_take_lt hpos hil
          omega
        · rw [List.take_of_length_le (by omega), Glyph.total_append]
          have := i1 (i - (s.glyphs u).length) (by omega)
          omega
      · rw [i2, List.drop_append, List.drop_eq_nil_iff (l := s.glyphs u).2 (by omega), List.nil_append,
          show (s.glyphs u).length + n - (s.glyphs u).length = n by omega]
      · rcases i4 with i4 | ⟨a, as, i4, i5, i6, i7⟩
        · exact .inl i4
        · refine .inr ⟨a, as, i4, ?_, i6, i7⟩
          rw [i5, List.take_append, List.take_of_length_le (l := s.glyphs u) (by omega), Glyph.total_append,
            show (s.glyphs u).length + n - (s.glyphs u).length = n by omega]
          push_cast
          omega
    · rw [if_neg h1]
      obtain ⟨n, i0, i1, i2, i3, i4⟩ := ih 0 hr
      have hn : n = 0 := by
        by_contra hn
        have := i1 0 (by omega)
        omega
      subst hn
      rw [show ((0 : Nat) : Int) = 0 by rfl] at i2 i3 i4
      rw [List.drop_zero] at i2
      have hoff : ∀ r ∈ Span.afterWidth u rest 0, r.offset = 0 := by
        rcases i4 with i4 | ⟨a, as, i4, i5, i6, i7⟩
        · rw [i4]; simp
        · rw [i4]
          intro r hr
          rcases List.mem_cons.1 hr with rfl | hr
          · rw [i5]; rfl
          · exact i7 r hr
      by_cases h2 : ((Glyph.total (s.glyphs u) : Nat) : Int) ≤ max 0 (((Glyph.total (s.glyphs u) : Nat) : Int) - k)
      · rw [if_pos h2]
        have hk : k = 0 := by omega
        subst hk
        refine ⟨0, by omega, fun i hi => absurd hi (by omega), ?_, ?_, .inr ⟨_, _, rfl, rfl, Int.le_refl _, hoff⟩⟩
        · rw [List.flatMap_cons, i2]; rfl
        · intro a ha
          rcases List.mem_cons.1 ha with rfl | ha
          · exact ⟨rfl, hv⟩
          · exact i3 a ha
      · rw [if_neg h2]
        have hmax : max 0 (((Glyph.total (s.glyphs u) : Nat) : Int) - k) = ((Glyph.total (s.glyphs u) : Nat) : Int) - k := by omega
        rw [hmax]
        have htot : Glyph.total (s.glyphs u) = u.columns (u.graphemes s.content) := Span.glyphs_total u s
        obtain ⟨n, n1, n2, n3, n4⟩ := truncateLoop_wide (u := u) (((Glyph.total (s.glyphs u) : Nat) : Int) - k)
          (u.graphemes s.content) (fun c hc => (hv c hc).1) (by omega) (by omega)
        have hsw : u.stringWidth (String.join ((u.graphemes s.content).drop n)) =
            u.columns ((u.graphemes s.content).drop n) := by
          unfold Uniseg.stringWidth Uniseg.columns
          rw [suffix_drop hu hs]
        have htr : Span.truncateStart u s.content (((Glyph.total (s.glyphs u) : Nat) : Int) - k) =
            (String.join ((u.graphemes s.content).drop n), u.columns ((u.graphemes s.content).drop n)) := by
          unfold Span.truncateStart
          rw [if_neg (by rw [hcols]; omega), hcols, n2, hsw]
        rw [htr]
        have htoks : Span.glyphs u ⟨s.style, String.join ((u.graphemes s.content).drop n)⟩ = (s.glyphs u).drop n := by
          unfold Span.glyphs
          simp only [suffix_drop hu hs, List.map_drop]
        have hsplit := columns_split u (u.graphemes s.content) n
        have htake : Glyph.total ((s.glyphs u ++ rest.flatMap (Span.glyphs u)).take n) =
            u.columns ((u.graphemes s.content).take n) := by
          rw [List.take_append_of_le_length (by omega), glyphs_take_total]
        refine ⟨n, by rw [List.length_append]; omega, ?_, ?_, ?_, .inr ⟨_, _, rfl, ?_, ?_, hoff⟩⟩
        · intro i hi
          have := n4 i hi
          have hsp := columns_split u (u.graphemes s.content) i
          rw [List.take_append_of_le_length (by omega), glyphs_take_total]
          omega
        · rw [List.flatMap_cons, i2, List.drop_append_of_le_length (by omega), htoks]
        · intro a ha
          rcases List.mem_cons.1 ha with rfl | ha
          · refine ⟨?_, ?_⟩
            · simp only
              rw [Span.glyphs_total]
              simp only
              rw [hsw]
            · simp only [suffix_drop hu hs]
              intro c hc
              exact hv c (List.mem_of_mem_drop hc)
          · exact i3 a ha
        · simp only
          rw [htake]
          omega
        · simp only
          omega

theorem renderAll_wide {u : Uniseg} (hu : u.Lawful) (R : Int) : ∀ (as : List Span.After) (area : Rect)
    (b : Buffer), b.WF → (Inside b area ∧ area.x + area.width = R ∨ area.width = 0 ∧ R ≤ area.x) →
    area.height ≠ 0 → (∀ a ∈ as, WideAfter u a ∧ a.offset = 0) →
    ∃ b', Span.renderAll u as area b = some b' ∧ b'.area = b.area ∧ b'.WF ∧
      ∀ q, b'.cellAt q = Glyph.stamped b area.y R area.x (as.flatMap fun a => a.span.glyphs u) q := by
  intro as
  induction as with
  | nil => intro area b wf _ _ _; exact ⟨b, rfl, rfl, wf, fun q => (Glyph.stamped_nil ..).symm⟩
  | cons a as ih =>
    intro area b wf hin hh h
    obtain ⟨⟨hw, hn⟩, ho⟩ := h a List.mem_cons_self
    have hpos : Glyph.Pos (as.flatMap fun a => a.span.glyphs u) := by
      intro t ht
      obtain ⟨x, hx, ht⟩ := List.mem_flatMap.1 ht
      exact Span.glyphs_pos (h x (List.mem_cons_of_mem _ hx)).1.2 t ht
    have hpa := Span.glyphs_pos hn
    unfold Span.renderAll
    simp only [ho]
    by_cases he : (area.indentX 0).isEmpty = true
    · rw [if_pos he]
      refine ⟨b, rfl, rfl, wf, fun q => (Glyph.stamped_beyond _ ?_ ?_ _).symm⟩
      · rw [List.flatMap_cons]
        intro t ht
        rcases List.mem_append.1 ht with ht | ht
        · exact hpa t ht
        · exact hpos t ht
      rcases hin with ⟨hin, hR⟩ | ⟨hin, hR⟩
      · simp [Rect.isEmpty, Rect.indentX] at he
        unfold Inside at hin
        omega
      · exact hR
    · rw [if_neg he]
      have hne : area.width ≠ 0 := by
        intro h0
        apply he
        simp [Rect.isEmpty, Rect.indentX, h0]
      obtain ⟨hin, hR⟩ : Inside b area ∧ area.x + area.width = R := by
        rcases hin with h | h
        · exact h
        · exact absurd h.1 hne
      have hid : area.indentX 0 = area := by
        unfold Inside at hin
        unfold Rect.indentX
        ext <;> simp only <;> omega
      rw [hid]
      obtain ⟨b1, e1, a1, wf1, c1⟩ := span_render_wide hu a.span area b wf hin ⟨hne, hh⟩ hn
      have hRr : area.right = R := hR
      rw [hRr] at c1
      obtain ⟨b2, e2, a2, wf2, c2⟩ := ih (area.indentX a.width) b1 wf1 (by
          unfold Inside at hin ⊢
          rw [a1]
          unfold Rect.indentX
          simp only
          omega) hh (fun a ha => h a (List.mem_cons_of_mem _ ha))
      refine ⟨b2, ?_, a2.trans a1, wf2, ?_⟩
      · rw [e1]; exact e2
      · intro q
        rw [c2 q, List.flatMap_cons]
        have := Glyph.stamped_append hpa hpos c1 q
        rw [← hw] at this
        exact this

/-- As `renderAll_wide`, with the offset of the first piece. -/
theorem renderAll_offset {u : Uniseg} (hu : u.Lawful) (a : Span.After) (as : List Span.After) (area : Rect)
    (b : Buffer) (wf : b.WF) (hin : Inside b area) (hh : area.height ≠ 0) (ho : 0 ≤ a.offset)
    (h : ∀ x ∈ a :: as, WideAfter u x) (h0 : ∀ x ∈ as, x.offset = 0) :
    ∃ b', Span.renderAll u (a :: as) area b = some b' ∧ b'.area = b.area ∧ b'.WF ∧
      ∀ q, b'.cellAt q = Glyph.stamped b area.y (area.x + area.width) (area.x + a.offset)
        ((a :: as).flatMap fun a => a.span.glyphs u) q := by
  have e : Span.renderAll u (a :: as) area b =
      Span.renderAll u ({ a with offset := 0 } :: as) (area.indentX a.offset) b := by
    have : (area.indentX a.offset).indentX 0 = area.indentX a.offset := by
      unfold Rect.indentX
      ext <;> simp only <;> omega
    rw [Span.renderAll, Span.renderAll]
    simp only [this]
  rw [e]
  have := renderAll_wide hu (area.x + area.width) ({ a with offset := 0 } :: as) (area.indentX a.offset) b wf (by
      unfold Inside at hin ⊢
      unfold Rect.indentX
      simp only
      omega) hh (by
      intro x hx
      rcases List.mem_cons.1 hx with rfl | hx
      · exact ⟨h a List.mem_cons_self, rfl⟩
      · exact ⟨h x (List.mem_cons_of_mem _ hx), h0 x hx⟩)
  exact this

/-- The symbols of a line. -/
def Line.glyphs (u : Uniseg) (l : Line) : List Glyph := l.spans.flatMap (Span.glyphs u)

theorem Line.glyphs_pos {u : Uniseg} {l : Line} (h : l.VisibleText u) : Glyph.Pos (l.glyphs u) := by
  intro t ht
  obtain ⟨s, hs, ht⟩ := List.mem_flatMap.1 ht
  exact Span.glyphs_pos (h s hs) t ht

theorem Line.glyphs_total (u : Uniseg) (l : Line) : Glyph.total (l.glyphs u) = l.width u := by
  unfold Line.glyphs Line.width
  generalize l.spans = spans
  induction spans with
  | nil => rfl
  | cons s rest ih => rw [List.flatMap_cons, Glyph.total_append, ih, Span.glyphs_total]; rfl

theorem renderSpans_wide {u : Uniseg} (hu : u.Lawful) (hs : u.Suffix) (l : Line) (hl : l.VisibleText u) (k : Nat)
    (area : Rect) (b : Buffer) (wf : b.WF) (hin : Inside b area) (hh : area.height ≠ 0) :
    ∃ b' n, Span.renderSpans u l.spans area k b = some b' ∧ b'.area = b.area ∧ b'.WF ∧ n ≤ (l.glyphs u).length ∧
      (∀ i, i < n → Glyph.total ((l.glyphs u).take i) < k) ∧
      (n < (l.glyphs u).length → k ≤ Glyph.total ((l.glyphs u).take n)) ∧
      ∀ q, b'.cellAt q = Glyph.stamped b area.y (area.x + area.width)
        (area.x + ((Glyph.total ((l.glyphs u).take n) : Int) - k)) ((l.glyphs u).drop n) q := by
  obtain ⟨n, h0, h1, h2, h3, h4⟩ := afterWidth_wide hu hs l.spans k hl
  unfold Span.renderSpans
  rcases h4 with h4 | ⟨a, rest, h4, h5, h6, h7⟩
  · rw [h4] at h2 ⊢
    have hd : (l.glyphs u).drop n = [] := h2.symm
    have hlen : n = (l.glyphs u).length := by
      have := List.drop_eq_nil_iff.1 hd
      have h0 : n ≤ (l.glyphs u).length := h0
      omega
    refine ⟨b, n, rfl, rfl, wf, h0, h1, fun h => absurd h (by omega), fun q => ?_⟩
    rw [hd, Glyph.stamped_nil]
  · rw [h4] at h2 h3 ⊢
    obtain ⟨b', e, a1, wf1, c1⟩ := renderAll_offset hu a rest area b wf hin hh h6 h3 h7
    have h5' : a.offset = (Glyph.total ((l.glyphs u).take n) : Int) - k := h5
    refine ⟨b', n, e, a1, wf1, h0, h1, fun _ => by omega, fun q => ?_⟩
    rw [c1 q, h2, h5]
    rfl

namespace Glyph

/-- Symbol `j`, which begins in column `x`, takes column `k`; all of its columns are between `L` and `R`. -/
def At (ts : List Glyph) (o L R : Int) (j : Nat) (t : Glyph) (x k : Int) : Prop :=
  ts[j]? = some t ∧ x = o + total (ts.take j) ∧ L ≤ x ∧ x + t.width ≤ R ∧ x ≤ k ∧ k < x + t.width

theorem stamp_some {R : Int} : ∀ (ts : List Glyph) (o k : Int) (f : Cell → Cell), stamp R o ts k = some f →
    ∃ j t x, At ts o o R j t x k ∧ f = if k = x then Cell.put t.symbol t.style else Cell.reset := by
  intro ts
  induction ts with
  | nil => intro o k f h; cases h
  | cons t ts ih =>
    intro o k f h
    unfold stamp at h
    by_cases h1 : R < o + t.width
    · rw [if_pos h1] at h; cases h
    rw [if_neg h1] at h
    by_cases h2 : o ≤ k ∧ k < o + t.width
    · rw [if_pos h2] at h
      exact ⟨0, t, o, ⟨rfl, by simp [total], Int.le_refl _, by omega, h2.1, h2.2⟩, by simpa using h.symm⟩
    · rw [if_neg h2] at h
      obtain ⟨j, t', x, ⟨g1, g2, g3, g4, g5, g6⟩, hf⟩ := ih _ _ _ h
      refine ⟨j + 1, t', x, ⟨g1, ?_, by omega, g4, g5, g6⟩, hf⟩
      rw [List.take_succ_cons, total_cons]
      push_cast
      omega

theorem stamp_of {R : Int} : ∀ (ts : List Glyph), Pos ts → ∀ (o k : Int) (j : Nat) (t : Glyph) (x : Int),
    At ts o o R j t x k → stamp R o ts k = some (if k = x then Cell.put t.symbol t.style else Cell.reset) := by
  intro ts
  induction ts with
  | nil => intro _ o k j t x h; have := h.1; simp at this
  | cons a ts ih =>
    intro hp o k j t x ⟨g1, g2, g3, g4, g5, g6⟩
    cases j with
    | zero =>
      simp only [List.getElem?_cons_zero, Option.some.injEq] at g1
      subst g1
      have g2 : x = o := by rw [g2]; simp [total]
      subst g2
      unfold stamp
      rw [if_neg (by omega), if_pos ⟨g5, g6⟩]
    | succ j =>
      rw [List.getElem?_cons_succ] at g1
      rw [List.take_succ_cons, total_cons] at g2
      push_cast at g2
      have hpos := hp a List.mem_cons_self
      unfold stamp
      rw [if_neg (by omega), if_neg (by omega)]
      exact ih (fun t h => hp t (List.mem_cons_of_mem _ h)) _ _ j t x ⟨g1, by omega, by omega, g4, g5, g6⟩

end Glyph

theorem total_take_mono {ts : List Glyph} {i j : Nat} (h : i ≤ j) : Glyph.total (ts.take i) ≤ Glyph.total (ts.take j) := by
  have : ts.take i = (ts.take j).take i := by rw [List.take_take, Nat.min_eq_left h]
  rw [this]
  have h2 : Glyph.total (ts.take j) = Glyph.total ((ts.take j).take i) + Glyph.total ((ts.take j).drop i) := by
    rw [← Glyph.total_append, List.take_append_drop]
  omega

/-- Dropping the symbols that begin before column `k` is showing only those that begin at or behind it. -/
theorem at_drop {ts : List Glyph} {n : Nat} (hn : n ≤ ts.length) {k : Nat} {X R : Int}
    (h1 : ∀ i, i < n → Glyph.total (ts.take i) < k) (h2 : n < ts.length → k ≤ Glyph.total (ts.take n))
    (j : Nat) (t : Glyph) (x m : Int) :
    Glyph.At (ts.drop n) (X + ((Glyph.total (ts.take n) : Int) - k)) (X + ((Glyph.total (ts.take n) : Int) - k)) R j t x m ↔
      Glyph.At ts (X - k) X R (n + j) t x m := by
  have htake : Glyph.total (ts.take (n + j)) = Glyph.total (ts.take n) + Glyph.total ((ts.drop n).take j) := by
    rw [← Glyph.total_append, ← List.take_add]
  unfold Glyph.At
  rw [List.getElem?_drop, htake]
  constructor
  · rintro ⟨g1, g2, g3, g4, g5, g6⟩
    have hlt := (List.getElem?_eq_some_iff.1 g1).1
    have := h2 (by omega)
    exact ⟨g1, by push_cast; omega, by omega, g4, g5, g6⟩
  · rintro ⟨g1, g2, g3, g4, g5, g6⟩
    push_cast at g2
    exact ⟨g1, by omega, by omega, g4, g5, g6⟩

theorem at_before {ts : List Glyph} {n : Nat} {k : Nat} {X R : Int}
    (h1 : ∀ i, i < n → Glyph.total (ts.take i) < k) {j : Nat} {t : Glyph} {x m : Int}
    (h : Glyph.At ts (X - k) X R j t x m) : n ≤ j := by
  by_contra hj
  have := h1 j (by omega)
  obtain ⟨_, g2, g3, _⟩ := h
  omega

/-- The cells after a line is drawn: `b1` is the buffer after the style of the line has been set. -/
theorem line_wide {u : Uniseg} (hu : u.Lawful) (hs : u.Suffix) (l : Line) (parent : Alignment)
    (hl : l.VisibleText u) (area : Rect) (b : Buffer) (wf : b.WF) (hin : Inside b area) (hh : 0 < area.height)
    (hw : 0 < area.width) (hz : l.width u ≠ 0) :
    ∃ b1 b', b.setStyle ⟨area.x, area.y, min area.width (l.width u), 1⟩ l.style = some b1 ∧
      b1.area = b.area ∧ b1.WF ∧
      (∀ q, b1.cellAt q = if (⟨area.x, area.y, min area.width (l.width u), 1⟩ : Rect).contains q = true then
        (b.cellAt q).map (Cell.setStyle l.style) else b.cellAt q) ∧
      l.renderAligned u area parent b = some b' ∧ b'.area = b.area ∧ b'.WF ∧
      (∀ j t x k, Glyph.At (l.glyphs u) ((l.alignmentIn parent).origin area.width.toNat (l.width u)) 0 area.width j t x k →
        b'.cellAt ⟨area.x + k, area.y⟩ = (b1.cellAt ⟨area.x + k, area.y⟩).map
          (if k = x then Cell.put t.symbol t.style else Cell.reset)) ∧
      ∀ q : Position, ¬ (q.y = area.y ∧ ∃ j t x, Glyph.At (l.glyphs u)
        ((l.alignmentIn parent).origin area.width.toNat (l.width u)) 0 area.width j t x (q.x - area.x)) →
        b'.cellAt q = b1.cellAt q := by
  obtain ⟨b1, e1, a1, wf1, c1⟩ := setStyle_cells wf ⟨area.x, area.y, min area.width (l.width u), 1⟩ l.style
  have hpos := Line.glyphs_pos hl
  have hin' := hin
  obtain ⟨i1, i2, i3, i4, i5, i6⟩ := hin'
  have hrender : l.renderAligned u area parent b = (if (l.width u : Int) ≤ area.width then
        Span.renderSpans u l.spans ((⟨area.x, area.y, area.width, 1⟩ : Rect).indentX
          (Line.share (l.alignmentIn parent) (area.width - l.width u))) 0 b1
      else Span.renderSpans u l.spans ⟨area.x, area.y, area.width, 1⟩
        (Line.share (l.alignmentIn parent) (l.width u - area.width)) b1) := by
    unfold Line.renderAligned
    simp only [hin.intersection]
    rw [if_neg (by simp [Rect.isEmpty]; omega), if_neg (by omega), e1]
    rfl
  refine ⟨b1, ?_⟩
  rw [hrender]
  by_cases hfit : (l.width u : Int) ≤ area.width
  · rw [if_pos hfit]
    have hsh : Line.share (l.alignmentIn parent) (area.width - l.width u) =
        ((l.alignmentIn parent).before (area.width.toNat - l.width u) : Nat) := by
      rw [← share_eq]
      congr 1
      omega
    have horg : (l.alignmentIn parent).origin area.width.toNat (l.width u) =
        ((l.alignmentIn parent).before (area.width.toNat - l.width u) : Nat) := by
      unfold Alignment.origin
      rw [if_pos (by omega)]
    have hle : (l.alignmentIn parent).before (area.width.toNat - l.width u) ≤ area.width.toNat - l.width u := by
      cases l.alignmentIn parent <;> simp only [Alignment.before] <;> omega
    rw [hsh, horg]
    generalize (l.alignmentIn parent).before (area.width.toNat - l.width u) = i at hle
    obtain ⟨b', n, e, a2, wf2, n0, n1, n2, c2⟩ := renderSpans_wide hu hs l hl 0
      ((⟨area.x, area.y, area.width, 1⟩ : Rect).indentX i) b1 wf1 (by
        unfold Inside
        rw [a1]
        unfold Rect.indentX
        simp only
        omega) (by unfold Rect.indentX; simp)
    have hn : n = 0 := by
      by_contra hn
      have := n1 0 (by omega)
      omega
    subst hn
    have c2 : ∀ q, b'.cellAt q = Glyph.stamped b1 area.y (area.x + area.width) (area.x + i) (l.glyphs u) q := by
      intro q
      rw [c2 q]
      unfold Rect.indentX
      simp only [List.take_zero, List.drop_zero]
      rw [show area.x + (i : Int) + max 0 (area.width - i) = area.x + area.width by omega]
      simp [Glyph.total]
    refine ⟨b', e1, a1, wf1, c1, e, a2.trans a1, wf2, ?_, ?_⟩
    · intro j t x k ⟨g1, g2, g3, g4, g5, g6⟩
      rw [c2]
      unfold Glyph.stamped
      rw [if_pos rfl]
      simp only
      rw [Glyph.stamp_of (l.glyphs u) hpos (area.x + i) (area.x + k) j t (area.x + x)
        ⟨g1, by omega, by omega, by omega, by omega, by omega⟩]
      simp only [Int.add_right_inj]
    · intro q hq
      rw [c2]
      unfold Glyph.stamped
      by_cases hy : q.y = area.y
      · rw [if_pos hy]
        cases hst : Glyph.stamp (area.x + area.width) (area.x + i) (l.glyphs u) q.x with
        | none => rfl
        | some f =>
          exfalso
          apply hq
          obtain ⟨j, t, x, ⟨g1, g2, g3, g4, g5, g6⟩, _⟩ := Glyph.stamp_some _ _ _ _ hst
          exact ⟨hy, j, t, x - area.x, g1, by omega, by omega, by omega, by omega, by omega⟩
      · rw [if_neg hy]
  · rw [if_neg hfit]
    have hsh : Line.share (l.alignmentIn parent) (l.width u - area.width) =
        ((l.alignmentIn parent).before (l.width u - area.width.toNat) : Nat) := by
      rw [← share_eq]
      congr 1
      omega
    have horg : (l.alignmentIn parent).origin area.width.toNat (l.width u) =
        -(((l.alignmentIn parent).before (l.width u - area.width.toNat) : Nat) : Int) := by
      unfold Alignment.origin
      rw [if_neg (by omega)]
    rw [hsh, horg]
    generalize (l.alignmentIn parent).before (l.width u - area.width.toNat) = i
    obtain ⟨b', n, e, a2, wf2, n0, n1, n2, c2⟩ := renderSpans_wide hu hs l hl i
      ⟨area.x, area.y, area.width, 1⟩ b1 wf1 (by
        unfold Inside
        rw [a1]
        simp only
        omega) (by simp)
    simp only at c2
    have hposd : Glyph.Pos ((l.glyphs u).drop n) := fun t ht => hpos t (List.mem_of_mem_drop ht)
    refine ⟨b', e1, a1, wf1, c1, e, a2.trans a1, wf2, ?_, ?_⟩
    · intro j t x k ⟨g1, g2, g3, g4, g5, g6⟩
      rw [c2]
      unfold Glyph.stamped
      rw [if_pos rfl]
      simp only
      have hat : Glyph.At (l.glyphs u) (area.x - i) area.x (area.x + area.width) j t (area.x + x) (area.x + k) :=
        ⟨g1, by omega, by omega, by omega, by omega, by omega⟩
      have hj := at_before n1 hat
      obtain ⟨j', rfl⟩ : ∃ j', j = n + j' := ⟨j - n, by omega⟩
      rw [Glyph.stamp_of ((l.glyphs u).drop n) hposd _ (area.x + k) j' t (area.x + x) ((at_drop n0 n1 n2 _ _ _ _).2 hat)]
      simp only [Int.add_right_inj]
    · intro q hq
      rw [c2]
      unfold Glyph.stamped
      by_cases hy : q.y = area.y
      · rw [if_pos hy]
        cases hst : Glyph.stamp (area.x + area.width) (area.x + ((Glyph.total ((l.glyphs u).take n) : Int) - i))
            ((l.glyphs u).drop n) q.x with
        | none => rfl
        | some f =>
          exfalso
          apply hq
          obtain ⟨j, t, x, hat, _⟩ := Glyph.stamp_some _ _ _ _ hst
          obtain ⟨g1, g2, g3, g4, g5, g6⟩ := (at_drop n0 n1 n2 _ _ _ _).1 hat
          exact ⟨hy, n + j, t, x - area.x, g1, by omega, by omega, by omega, by omega, by omega⟩
      · rw [if_neg hy]

end Bento
