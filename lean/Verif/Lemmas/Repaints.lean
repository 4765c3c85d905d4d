import Verif.Props.Block
import Verif.Props.Text

/-!
# Drawing that changes every cell in a known way
-/

namespace Bento

/-- The drawing does not panic on buffers of the given area and turns every cell into what `g` says. -/
def Repaints (window : Rect) (g : Position → Cell → Cell) (f : Buffer → Option Buffer) : Prop :=
  ∀ b : Buffer, b.WF → b.area = window →
    ∃ b', f b = some b' ∧ b'.WF ∧ b'.area = window ∧ ∀ q, b'.cellAt q = (b.cellAt q).map (g q)

/-- A rectangle in another one. -/
def Rect.In (window r : Rect) : Prop :=
  window.x ≤ r.x ∧ r.x + r.width ≤ window.x + window.width ∧ window.y ≤ r.y ∧
    r.y + r.height ≤ window.y + window.height ∧ 0 ≤ r.width ∧ 0 ≤ r.height

namespace Repaints

theorem nothing (window : Rect) : Repaints window (fun _ c => c) some :=
  fun b wf ha => ⟨b, rfl, wf, ha, fun q => by cases b.cellAt q <;> rfl⟩

theorem bind {window : Rect} {g1 g2 : Position → Cell → Cell} {f1 f2 : Buffer → Option Buffer}
    (h1 : Repaints window g1 f1) (h2 : Repaints window g2 f2) :
    Repaints window (fun q c => g2 q (g1 q c)) (fun b => (f1 b).bind f2) := by
  intro b wf ha
  obtain ⟨b1, e1, w1, a1, c1⟩ := h1 b wf ha
  obtain ⟨b2, e2, w2, a2, c2⟩ := h2 b1 w1 a1
  refine ⟨b2, by simp only [e1, Option.bind_some]; exact e2, w2, a2, fun q => ?_⟩
  rw [c2, c1, Option.map_map]
  rfl

theorem congr {window : Rect} {g1 g2 : Position → Cell → Cell} {f : Buffer → Option Buffer}
    (h : Repaints window g1 f) (hg : ∀ q, window.contains q = true → ∀ c, g1 q c = g2 q c) : Repaints window g2 f := by
  intro b wf ha
  obtain ⟨b1, e1, w1, a1, c1⟩ := h b wf ha
  refine ⟨b1, e1, w1, a1, fun q => ?_⟩
  rw [c1]
  cases hc : b.cellAt q with
  | none => rfl
  | some c =>
    simp only [Option.map_some]
    rw [hg q (by rw [← ha]; exact Buffer.cellAt_some_contains hc)]

/-- `SetStyle`. -/
theorem setStyle (window area : Rect) (style : Style) :
    Repaints window (fun q c => if area.contains q = true then c.setStyle style else c) (fun b => b.setStyle area style) := by
  intro b wf ha
  obtain ⟨b', e, a', wf', c'⟩ := setStyle_cells wf area style
  refine ⟨b', e, wf', a'.trans ha, fun q => ?_⟩
  rw [c']
  by_cases h : area.contains q = true
  · simp only [h, if_true]
  · simp only [h]
    cases b.cellAt q <;> rfl

/-- A line of single-width text. -/
theorem line {u : Uniseg} (hu : u.Lawful) (hs : u.Suffix) (l : Line) (hl : l.NarrowText u) (hst : l.style = Style.new)
    (window area : Rect) (hin : window.In area) :
    Repaints window (fun q c => if area.contains q = true ∧ q.y = area.y then
        match l.alignment.shown area.width.toNat (l.styledClusters u) (q.x - area.x).toNat with
        | some (s, st) => c.put s st
        | none => c
      else c) (l.render u area) := by
  intro b wf ha
  have hinb : Inside b area := by unfold Inside; rw [ha]; exact hin
  obtain ⟨hw, hlen⟩ := line_clusters_length hl
  obtain ⟨h1, h2, h3, h4, h5, h6⟩ := hin
  have idm : ∀ o : Option Cell, o = o.map fun c => c := fun o => by cases o <;> rfl
  by_cases he : area.isEmpty = true
  · refine ⟨b, ?_, wf, ha, fun q => ?_⟩
    · unfold Line.render Line.renderAligned
      simp only [hinb.intersection]
      rw [if_pos he]
    · have : ¬ (area.contains q = true ∧ q.y = area.y) := by
        rw [Rect.contains_iff]; unfold Rect.Mem
        simp [Rect.isEmpty] at he
        omega
      simp only [this, if_false]
      exact idm _
  by_cases hz : l.clusters u = []
  · refine ⟨b, ?_, wf, ha, fun q => ?_⟩
    · unfold Line.render Line.renderAligned
      simp only [hinb.intersection, hw]
      rw [if_neg he, if_pos (by rw [hz]; rfl)]
    · have : l.styledClusters u = [] := List.eq_nil_of_length_eq_zero (by rw [styledClusters_length, hz]; rfl)
      rw [this]
      unfold Alignment.shown
      simp
  have hw0 : 0 < area.width := by simp [Rect.isEmpty] at he; omega
  have hh0 : 0 < area.height := by simp [Rect.isEmpty] at he; omega
  obtain ⟨b1, b', a1, wf1, c1, e, a2, wf2, c2⟩ := line_cells hu hs l .none hl area b wf hinb hh0 hw0 hz
  refine ⟨b', e, wf2, a2.trans ha, fun q => ?_⟩
  have hb1 : b1.cellAt q = b.cellAt q := by
    rw [c1 q, hst]
    split_ifs
    · cases b.cellAt q with
      | none => rfl
      | some c => simp [(C05_new_unit Style.new c).2.2]
    · rfl
  have hal : l.alignmentIn .none = l.alignment := by
    unfold Line.alignmentIn; split_ifs with h <;> simp [h]
  rw [hal] at c2
  rw [c2 q]
  unfold Buffer.overlay
  rw [puts_styled, hb1, ← styledClusters_length]
  have hq : (area.contains q = true ∧ q.y = area.y) ↔ q.y = area.y ∧ area.x ≤ q.x ∧ q.x < area.x + area.width := by
    rw [Rect.contains_iff]; unfold Rect.Mem; omega
  simp only [hq]
  unfold Alignment.shown
  generalize l.styledClusters u = cs at *
  by_cases hfit : cs.length ≤ area.width.toNat
  · simp only [hfit, if_true, List.drop_zero]
    generalize l.alignment.before (area.width.toNat - cs.length) = i at *
    by_cases hq : q.y = area.y ∧ area.x ≤ q.x ∧ q.x < area.x + area.width
    · by_cases hi : (q.x - area.x).toNat < i
      · rw [if_neg (by omega)]
        simp only [hq, hi, and_self, if_true]
        exact idm _
      · rw [if_pos (by omega), show (q.x - (area.x + (i : Nat))).toNat = (q.x - area.x).toNat - i by omega,
          List.getElem?_map]
        simp only [hq, hi, and_self, if_true, if_false]
        cases cs[(q.x - area.x).toNat - i]? <;> simp
    · rw [if_neg (by omega)]
      simp only [hq, if_false]
      exact idm _
  · simp only [hfit, if_false]
    generalize l.alignment.before (cs.length - area.width.toNat) = i at *
    by_cases hq : q.y = area.y ∧ area.x ≤ q.x ∧ q.x < area.x + area.width
    · rw [if_pos (by omega), List.getElem?_drop, List.getElem?_map,
        show i + (q.x - (area.x + ((0 : Nat) : Int))).toNat = (q.x - area.x).toNat + i by omega]
      simp only [hq, and_self, if_true]
      cases cs[(q.x - area.x).toNat + i]? <;> simp
    · rw [if_neg (by omega)]
      simp only [hq, if_false]
      exact idm _

/-- The sides of a block. -/
theorem borders (b : Block) (window area : Rect) (hin : window.In area)
    (hw : 2 ≤ area.width ∨ area.width = 1 ∧ b.borderSet.verticalLeft = b.borderSet.verticalRight)
    (hh : 2 ≤ area.height ∨ area.height = 1 ∧ b.borderSet.horizontalTop = b.borderSet.horizontalBottom) :
    Repaints window (fun q c => if area.contains q = true then (c.setStyle b.style).bordered b.borderStyle
          (b.borderSet.symbol
            (Block.hasSides b.borders 8 && decide (q.x = area.x))
            (Block.hasSides b.borders 1 && decide (q.y = area.y))
            (Block.hasSides b.borders 2 && decide (q.x = area.x + area.width - 1))
            (Block.hasSides b.borders 4 && decide (q.y = area.y + area.height - 1))) else c)
      (fun buf => (buf.setStyle area b.style).bind (b.renderBorders area)) := by
  intro buf wf ha
  have hinb : Inside buf area := by unfold Inside; rw [ha]; exact hin
  obtain ⟨h1, h2, h3, h4, h5, h6⟩ := hin
  have hself : area.intersection area = area := by
    unfold Rect.intersection Rect.right Rect.bottom
    ext <;> simp only <;> omega
  obtain ⟨c', e, hc⟩ := C67_border_cells Uniseg.simple { b with titles := [] } rfl area buf wf hinb hw hh
  have hne : area.isEmpty = false := by
    simp [Rect.isEmpty]; omega
  have htitles : ∀ buf, ({ b with titles := [] } : Block).renderTitles Uniseg.simple area buf = some buf := fun buf => rfl
  have hrb : ∀ x, ({ b with titles := [] } : Block).renderBorders area x = b.renderBorders area x := fun _ => rfl
  obtain ⟨d, ed, ad, wfd, cd⟩ := setStyle_cells wf area b.style
  obtain ⟨c2, e2, a2, w2, k2⟩ := Block.renderBorders_confined wfd b area
    (by unfold Inside at *; rw [ad]; exact hinb) (by omega) (by omega)
  unfold Block.render at e
  simp only [hself, hne, Bool.false_eq_true, if_false] at e
  beta_reduce
  rw [ed] at e ⊢
  simp only [Option.bind_eq_bind, Option.bind_some, hrb] at e ⊢
  rw [e2] at e ⊢
  simp only [Option.bind_some, htitles, Option.some.injEq] at e
  subst e
  refine ⟨c2, rfl, w2, (a2.trans ad).trans ha, fun q => ?_⟩
  by_cases hq : area.contains q = true
  · simp only [hq, if_true]
    exact hc q hq
  · simp only [hq]
    rw [k2 q ?_, cd, if_neg (by simpa using hq)]
    · cases buf.cellAt q <;> rfl
    · intro h
      exact hq h.1

end Repaints

end Bento
