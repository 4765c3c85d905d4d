import Verif.Lemmas.Marks
import Verif.Lemmas.Drawable

/-!
# Property C98: clusters without width stay with the symbol they follow

Zero width spaces, joiners, direction marks and soft hyphens are clusters of their own and take no column.
-/

namespace Bento

open Buffer Marks

/-- **C98**, exactly what a span shows, for clusters of any width: `lead` are the clusters without width before the
first symbol, `shown` the symbols that fit, each with the clusters without width behind it, and `rest` begins with a
symbol that does not fit. -/
theorem C98_span_exact {u : Uniseg} (hu : u.Lawful) (s : Span) (area : Rect) {b : Buffer} (wf : b.WF)
    (hne : (area.intersection b.area).isEmpty = false) {lead rest : List String} {shown : List Marked}
    (hcs : (u.graphemes s.content).filter (fun c => decide (Harmless c)) =
      lead ++ shown.flatMap Marked.clusters ++ rest)
    (hl : ∀ c ∈ lead, u.width c = 0) (hs : ∀ m ∈ shown, m.Ok u) (h0 : shown ≠ [])
    (hcut : CutBehind u (area.intersection b.area).width shown rest) :
    let r := area.intersection b.area
    let row := (shown.flatMap (Marked.cells u)).modifyHead (String.join lead ++ ·)
    ∃ b', s.render u area b = some b' ∧ b'.area = b.area ∧ row.length = markedColumns u shown ∧
      ∀ q, b'.symbolAt q = if q.y = r.y ∧ r.x ≤ q.x ∧ q.x < r.x + markedColumns u shown then row[(q.x - r.x).toNat]?
        else b.symbolAt q := by
  intro r row
  have hrow : row.length = markedColumns u shown := by
    simp only [row, List.length_modifyHead, List.length_flatMap, markedColumns]
    congr 1
    exact List.map_congr_left fun m _ => cells_length m
  have hg : s.styledGraphemes u Style.new = graphemesOf u (Style.new.patched s.style)
      (lead ++ shown.flatMap Marked.clusters ++ rest) := by
    rw [← hcs]
    simp only [Span.styledGraphemes, graphemesOf]
    have hf : (u.graphemes s.content).filter (fun c => !c.toList.any isControlRune) =
        (u.graphemes s.content).filter (fun c => decide (Harmless c)) := by
      apply List.filter_congr
      intro c _
      rw [Bool.eq_iff_iff]
      constructor
      · intro h
        exact decide_eq_true (harmless_of_any (by simpa using h))
      · intro h
        have h := of_decide_eq_true h
        rw [Bool.not_eq_true', List.any_eq_false]
        intro d hd hC
        exact h d hd ((isControlRune_iff d).1 hC)
    rw [hf]
    apply List.map_congr_left
    intro c hc
    have hmem := (List.mem_filter.1 hc).1
    simp only [Grapheme.new, Uniseg.stringWidth, hu.idem _ c hmem, List.map_cons, List.map_nil, List.sum_cons,
      List.sum_nil, Nat.add_zero]
  have hmem : ∀ k : Nat, r.x + k < r.right → b.area.contains ⟨r.x + k, r.y⟩ = true := by
    intro k hk
    have : r.contains ⟨r.x + k, r.y⟩ = true := by
      have hh : r.width ≠ 0 ∧ r.height ≠ 0 := by
        have : r.isEmpty = false := hne
        simp only [Rect.isEmpty, Bool.or_eq_false_iff, beq_eq_false_iff_ne, ne_eq, decide_eq_false_iff_not] at this
        exact this
      have h2 : 0 ≤ r.height := by
        show 0 ≤ (area.intersection b.area).height
        simp only [Rect.intersection]
        omega
      refine contains_of (by simp only; omega) hk (Int.le_refl _) ?_
      simp only [Rect.bottom]
      omega
    exact ((contains_intersection _ _ _).1 this).2
  obtain ⟨b2, e2, h2⟩ := span_step (st := Style.new.patched s.style) (y := r.y) hl h0 hs wf hcut hmem
  refine ⟨b2, ?_, h2.area, hrow, fun q => ?_⟩
  · unfold Span.render
    simp only [hne, Bool.false_eq_true, if_false]
    rw [hg]
    exact e2
  · rw [h2.cells q, hrow]

/-- Every text has such a decomposition. -/
theorem C98_decomposition (u : Uniseg) (w : Int) (hw : 0 ≤ w) (cs : List String) :
    ∃ (lead : List String) (shown : List Marked) (rest : List String), cs = lead ++ shown.flatMap Marked.clusters ++ rest ∧ (∀ c ∈ lead, u.width c = 0) ∧
      (∀ m ∈ shown, m.Ok u) ∧ CutBehind u w shown rest := by
  have h1 : ∃ (lead : List String) (ms : List Marked), cs = lead ++ ms.flatMap Marked.clusters ∧ (∀ c ∈ lead, u.width c = 0) ∧ ∀ m ∈ ms, m.Ok u := by
    induction cs with
    | nil => exact ⟨[], [], rfl, by simp, by simp⟩
    | cons c cs ih =>
      obtain ⟨lead, ms, e, hl, hm⟩ := ih
      by_cases h : u.width c = 0
      · refine ⟨c :: lead, ms, by rw [e]; rfl, ?_, hm⟩
        intro a ha
        rcases List.mem_cons.1 ha with rfl | ha
        · exact h
        · exact hl a ha
      · refine ⟨[], ⟨c, lead⟩ :: ms, by rw [e]; rfl, by simp, ?_⟩
        intro m hm'
        rcases List.mem_cons.1 hm' with rfl | hm'
        · exact ⟨by simp only; omega, hl⟩
        · exact hm m hm'
  obtain ⟨lead, ms, e, hl, hm⟩ := h1
  have h2 : ∀ (ms : List Marked) (w : Int), 0 ≤ w → (∀ m ∈ ms, m.Ok u) → ∃ shown later, ms = shown ++ later ∧
      CutBehind u w shown (later.flatMap Marked.clusters) := by
    intro ms
    induction ms with
    | nil => intro w hw _; exact ⟨[], [], rfl, by simpa [markedColumns] using hw, by simp⟩
    | cons m ms ih =>
      intro w hw hm
      by_cases h : (u.width m.base : Int) ≤ w
      · obtain ⟨shown, later, e, hcut⟩ := ih (w - u.width m.base) (by omega) fun a ha => hm a (List.mem_cons_of_mem _ ha)
        refine ⟨m :: shown, later, by rw [e]; rfl, ?_, ?_⟩
        · rw [columnsOf_cons]; have := hcut.1; push_cast; omega
        · intro c hc
          rw [columnsOf_cons]; have := hcut.2 c hc; push_cast; omega
      · refine ⟨[], m :: ms, rfl, by simpa [markedColumns] using hw, ?_⟩
        intro c hc
        simp only [List.flatMap_cons, Marked.clusters, List.cons_append, List.head?_cons, Option.some.injEq] at hc
        subst hc
        simp only [markedColumns, List.map_nil, List.sum_nil]
        push_cast
        omega
  obtain ⟨shown, later, e2, hcut⟩ := h2 ms w hw hm
  refine ⟨lead, shown, later.flatMap Marked.clusters, ?_, hl, fun m h => hm m (by rw [e2]; simp [h]), hcut⟩
  rw [e, e2, List.flatMap_append, List.append_assoc]

/-- **C98** for text of clusters of width one and zero that fits: the cells of the row, read from left to right, spell
the text, and there are as many of them as the text is wide. No cluster is lost or moved. -/
theorem C98_spells_partial {u : Uniseg} (hu : u.Lawful) (s : Span) (area : Rect) {b : Buffer} (wf : b.WF)
    (hne : (area.intersection b.area).isEmpty = false)
    (hc : ∀ c ∈ u.graphemes s.content, u.width c ≤ 1 ∧ Harmless c)
    (hfit : (u.stringWidth s.content : Int) ≤ (area.intersection b.area).width)
    (hpos : 0 < u.stringWidth s.content) :
    let r := area.intersection b.area
    ∃ b' row, s.render u area b = some b' ∧ row.length = u.stringWidth s.content ∧ String.join row = s.content ∧
      ∀ q, b'.symbolAt q = if q.y = r.y ∧ r.x ≤ q.x ∧ q.x < r.x + u.stringWidth s.content then
        row[(q.x - r.x).toNat]? else b.symbolAt q := by
  intro r
  have hfilter : (u.graphemes s.content).filter (fun c => decide (Harmless c)) = u.graphemes s.content :=
    List.filter_eq_self.2 fun c h => decide_eq_true (hc c h).2
  obtain ⟨lead, shown, rest, e, hl, hs, hcut⟩ := C98_decomposition u r.width (by
    have : 0 ≤ (u.stringWidth s.content : Int) := Int.natCast_nonneg _
    exact Int.le_trans this hfit) (u.graphemes s.content)
  have hsum : u.stringWidth s.content = markedColumns u shown + (rest.map u.width).sum := by
    have z : ∀ l : List String, (∀ c ∈ l, u.width c = 0) → (l.map u.width).sum = 0 := by
      intro l hl
      induction l with
      | nil => rfl
      | cons a l ih =>
        simp only [List.map_cons, List.sum_cons]
        rw [hl a (List.mem_cons_self ..), ih fun c hc => hl c (List.mem_cons_of_mem _ hc)]
    have c : ∀ ms : List Marked, (∀ m ∈ ms, m.Ok u) →
        ((ms.flatMap Marked.clusters).map u.width).sum = markedColumns u ms := by
      intro ms hms
      induction ms with
      | nil => rfl
      | cons m ms ih =>
        rw [columnsOf_cons, ← ih fun a ha => hms a (List.mem_cons_of_mem _ ha)]
        simp only [List.flatMap_cons, Marked.clusters, List.cons_append, List.map_cons, List.map_append,
          List.sum_cons, List.sum_append]
        rw [z m.marks (hms m (List.mem_cons_self ..)).2]
        omega
    unfold Uniseg.stringWidth
    rw [e]
    simp only [List.map_append, List.sum_append]
    rw [z lead hl, c shown hs]
    omega
  have hrest : rest = [] := by
    cases rest with
    | nil => rfl
    | cons a rest =>
      have := hcut.2 a rfl
      have h2 : (u.stringWidth s.content : Int) ≤ r.width := hfit
      rw [hsum] at h2
      simp only [List.map_cons, List.sum_cons] at h2
      push_cast at h2
      have : (0 : Int) ≤ ((rest.map u.width).sum : Nat) := Int.natCast_nonneg _
      omega
  subst hrest
  simp only [List.map_nil, List.sum_nil, Nat.add_zero] at hsum
  have h0 : shown ≠ [] := by
    rintro rfl
    rw [hsum] at hpos
    simp [markedColumns] at hpos
  obtain ⟨b', e1, _, e3, e4⟩ := C98_span_exact hu s area wf hne (by rw [hfilter]; exact e) hl hs h0 hcut
  have hcells : ∀ m ∈ shown, m.cells u = [m.base ++ String.join m.marks] := by
    intro m hm
    have h1 : u.width m.base = 1 := by
      have : m.base ∈ u.graphemes s.content := by
        rw [e]
        simp only [List.append_nil, List.mem_append, List.mem_flatMap]
        exact Or.inr ⟨m, hm, by simp [Marked.clusters]⟩
      have := (hc _ this).1
      have := (hs m hm).1
      omega
    have := cellsFrom_one m.base (String.join m.marks)
    rw [← h1] at this
    exact this
  have hj : ∀ ms : List Marked, (∀ m ∈ ms, m.cells u = [m.base ++ String.join m.marks]) →
      String.join (ms.flatMap (Marked.cells u)) = String.join (ms.flatMap Marked.clusters) := by
    intro ms hms
    induction ms with
    | nil => rfl
    | cons m ms ih =>
      rw [List.flatMap_cons, List.flatMap_cons, join_append, join_append, hms m (List.mem_cons_self ..),
        ih fun a ha => hms a (List.mem_cons_of_mem _ ha)]
      congr 1
      rw [join_cons, Marked.clusters, join_cons]
      simp [String.join]
  refine ⟨b', _, e1, by rw [e3, hsum], ?_, by rw [hsum]; exact e4⟩
  rw [join_modifyHead, hj shown hcells, ← join_append]
  · rw [← hu.join s.content]
    conv_rhs => rw [e, List.append_nil]
  · intro hz
    have := congrArg List.length hz
    rw [List.length_modifyHead] at e3
    rw [e3, ← hsum] at this
    simp at this
    omega

/-- A segmentation in which the zero width space is a cluster of its own, as it is for Unicode. -/
def zeroWidth : Uniseg where
  graphemes s := s.toList.map (fun c => String.ofList [c])
  width s := if s = "\u200b" then 0 else if s = "世" then 2 else 1

/-- **C98** is false behind a wide symbol: the cluster is put behind the blank of the hidden cell, which
is never sent to the terminal. -/
theorem C98_wide_false :
    let b : Buffer := ⟨⟨0, 0, 4, 1⟩, List.replicate 4 Cell.empty⟩
    ((Span.new "世\u200bab").render zeroWidth ⟨0, 0, 4, 1⟩ b).map (fun b => b.content.map Cell.symbol) =
      some ["世", " \u200b", "a", "b"] ∧
    (((Span.new "世\u200bab").render zeroWidth ⟨0, 0, 4, 1⟩ b).bind fun b' => b.diff zeroWidth b').map
      (fun l => l.map fun pc => pc.cell.symbol) = some ["世", "a", "b"] := by
  decide +kernel

/-- Between narrow symbols it stays where it was, and at the start it goes with the first symbol. -/
example : let b : Buffer := ⟨⟨0, 0, 4, 1⟩, List.replicate 4 Cell.empty⟩
    ((Span.new "\u200b\u200ba\u200bbc").render zeroWidth ⟨0, 0, 4, 1⟩ b).map (fun b => b.content.map Cell.symbol) =
      some ["\u200b\u200ba\u200b", "b", "c", " "] := by
  decide +kernel

/-- The hypotheses of `C98_spells_partial` are met by that text. -/
example : let b : Buffer := ⟨⟨0, 0, 4, 1⟩, List.replicate 4 Cell.empty⟩
    ((⟨0, 0, 4, 1⟩ : Rect).intersection b.area).isEmpty = false ∧
    (∀ c ∈ zeroWidth.graphemes "\u200b\u200ba\u200bbc", zeroWidth.width c ≤ 1 ∧ Harmless c) ∧
    zeroWidth.stringWidth "\u200b\u200ba\u200bbc" = 3 := by
  decide +kernel

/-- And those of `C98_span_exact` by a text that is cut before a wide symbol. -/
example : let ms : List Marked := [⟨"a", ["\u200b"]⟩, ⟨"世", []⟩, ⟨"b", []⟩]
    (zeroWidth.graphemes "a\u200b世b世c").filter (fun c => decide (Harmless c)) =
      [] ++ ms.flatMap Marked.clusters ++ ["世", "c"] ∧
    CutBehind zeroWidth 5 ms ["世", "c"] ∧ ms.flatMap (Marked.cells zeroWidth) = ["a\u200b", "世", " ", "b"] := by
  refine ⟨by decide +kernel, ⟨by decide +kernel, ?_⟩, by decide +kernel⟩
  intro c hc
  cases hc
  decide +kernel

end Bento
