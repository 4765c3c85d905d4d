import Verif.Props.Paragraph
import Verif.Lemmas.Repaints

/-!
# The cells of a paragraph of one line
-/

namespace Bento

variable {u : Uniseg}

/-- What a paragraph of one line, without wrapping and scrolling, does to every cell. -/
theorem Repaints.paragraphLine (hu : u.Lawful) (p : Paragraph) (hb : p.block = none) (hwr : p.wrap = none)
    (hsc : p.scroll = ⟨0, 0⟩) (l : Line) (hl : p.text.lines = [l]) (hn : l.NarrowText u) (a : Alignment)
    (ha : a = if l.alignment = .none then p.alignment else l.alignment) (hne : p.alignment ≠ .none)
    (window area : Rect) (hin : window.In area) (hw : 0 < area.width) (hh : 0 < area.height)
    (G : List (String × Style))
    (hG : G = (l.spans.flatMap fun s => (u.graphemes s.content).map fun c =>
      (c, (p.text.style.patched l.style).patched s.style)).take area.width.toNat) :
    Repaints window (fun q c => if area.contains q = true then
        match (if q.y = area.y ∧ a.lead area.width.toNat G.length ≤ (q.x - area.x).toNat then
          G[(q.x - area.x).toNat - a.lead area.width.toNat G.length]? else none) with
        | some (s, st) => (c.setStyle p.style).put s st
        | none => c.setStyle p.style
      else c) (p.render u area) := by
  intro b wf harea
  have hinb : Inside b area := by unfold Inside; rw [harea]; exact hin
  have hc : p.content area = area := by unfold Paragraph.content; rw [hb]; rfl
  obtain ⟨ls, hr, hpt⟩ := C70_laid_out hu p hne area.width hw (fun h => absurd hwr h)
  obtain ⟨-, b', -, e, a', wf', hcells, -, hout⟩ := C70_rows_shown (u := u) p area b wf hinb (by simp [hb])
    (by rw [hc]; exact hw) (by rw [hc]; exact hh) (by rw [hc, hsc]; simpa using hh) ls (by rw [hc]; exact hr)
    (by rw [hc]; exact hpt)
  rw [hc, hb, hsc] at hcells
  refine ⟨b', e, wf', a'.trans harea, fun q => ?_⟩
  by_cases hq : area.contains q = true
  case neg =>
    rw [hout q (by simpa using hq)]
    simp only [hq]
    cases b.cellAt q <;> rfl
  rw [(hcells q hq).2]
  simp only [hq, if_true]
  congr 1
  funext c
  -- the graphemes of the line
  have hgs : l.styledGraphemes u p.text.style =
      l.spans.flatMap fun s => (u.graphemes s.content).map fun c =>
        (⟨⟨c, 1⟩, (p.text.style.patched l.style).patched s.style⟩ : StyledGrapheme) := by
    unfold Line.styledGraphemes
    rw [List.flatMap_def, List.flatMap_def]
    congr 1
    apply List.map_congr_left
    intro s hs
    exact styledGraphemes_narrow hu s _ (hn s hs)
  have hGs : G = ((l.styledGraphemes u p.text.style).take area.width.toNat).map fun g => (g.g.symbol, g.style) := by
    rw [List.map_take, hgs, List.map_flatMap, hG]
    simp only [List.map_map, Function.comp_def]
  have hone : ∀ g ∈ l.styledGraphemes u p.text.style, u.IsCluster g ∧ g.g.width = 1 ∧ g.g.symbol ≠ "" := by
    intro g hg
    refine ⟨styledGraphemes_cluster hu l p.text.style g hg, ?_⟩
    rw [hgs] at hg
    simp only [List.mem_flatMap, List.mem_map] at hg
    obtain ⟨s, _, c, hc, rfl⟩ := hg
    exact ⟨rfl, hu.nonempty _ c hc⟩
  generalize hX : l.styledGraphemes u p.text.style = X at *
  have hin1 : p.inputLines u = [⟨X, a⟩] := by
    unfold Paragraph.inputLines
    rw [hl, ha]
    simp only [List.map_cons, List.map_nil, hX]
  unfold Paragraph.Rows at hr
  rw [hwr, hin1, hsc] at hr
  have hrow := truncator_some u (lines := [⟨X, a⟩]) (last := ⟨X, a⟩) rfl (max := area.width) (by omega) 0
  have hls := hr.unique hrow
  subst hls
  obtain ⟨n1, n2⟩ := lineLoop_narrow hu hw a X ⟨StyledGrapheme.cleared [], 0, 0⟩
    (fun g hg => ⟨(hone g hg).1, (hone g hg).2.1⟩) (by simp [StyledGrapheme.cleared])
  have hline : (truncatorRow u [⟨X, a⟩] area.width 0 a).line =
    (LineTruncator.lineLoop u area.width a X ⟨StyledGrapheme.cleared [], 0, 0⟩).line := rfl
  rw [← hline] at n1 n2
  have hsolid : solid (truncatorRow u [⟨X, a⟩] area.width 0 a).line = X.take area.width.toNat := by
    rw [n1]
    simp [StyledGrapheme.cleared, solid]
  have hcol : (columns (truncatorRow u [⟨X, a⟩] area.width 0 a).line).toNat = G.length := by
    rw [columns_solid _ n2, hsolid, hGs]
    simp only [List.length_map, List.length_take]; omega
  have hRa : (truncatorRow u [⟨X, a⟩] area.width 0 a).alignment = a := by
    have h2 : [truncatorRow u [⟨X, a⟩] area.width 0 a] = [truncatorRow u [⟨X, a⟩] area.width 0 a] := rfl
    rfl
  generalize truncatorRow u [⟨X, a⟩] area.width 0 a = R at *
  have hqin := hq
  rw [Rect.contains_iff] at hqin
  unfold Rect.Mem at hqin
  unfold rowsShown rowAt
  by_cases hz : q.y = area.y
  · have hz' : q.y - area.y + 0 = 0 := by omega
    rw [if_pos (by omega), hz']
    simp only [Int.toNat_zero, List.getElem?_cons_zero, Option.bind_some]
    unfold WrappedLine.shownAt
    rw [hRa, hcol]
    by_cases hlead : a.lead area.width.toNat G.length ≤ (q.x - area.x).toNat
    · rw [if_pos hlead, if_pos ⟨hz, hlead⟩, atColumn_solid _ _ n2, hsolid]
      generalize (q.x - area.x).toNat - a.lead area.width.toNat G.length = k
      rw [hGs, List.getElem?_map]
      cases hk : (X.take area.width.toNat)[k]? with
      | none => rfl
      | some g =>
        simp only [Option.map_some]
        rw [if_neg (hone g (List.mem_of_mem_take (List.mem_of_getElem? hk))).2.2]
        rfl
    · rw [if_neg hlead, if_neg (by intro h; exact hlead h.2)]
  · rw [if_neg (show ¬ (q.y = area.y ∧ a.lead area.width.toNat G.length ≤ (q.x - area.x).toNat) from fun h => hz h.1)]
    rw [if_pos (by omega)]
    have : [R][(q.y - area.y + 0).toNat]? = none := by
      rw [List.getElem?_eq_none]
      simp only [List.length_cons, List.length_nil]
      omega
    rw [this]
    rfl

end Bento
