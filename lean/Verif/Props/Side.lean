import Verif.Lemmas.Side
import Verif.Props.Clear
import Verif.Props.Block
import Verif.Props.Layout

/-!
# Drawing side by side

C101 — widgets in areas that do not overlap do not affect each other.
-/

namespace Bento

open Beside

/-- The relation of `Lemmas/Side` gives the statement of `Spec/Side`. -/
theorem cellwise_of_alike {f : Buffer → Option Buffer}
    (h : ∀ (W : Rect) (Q : Position → Prop) (b c : Buffer), Alike W Q b c → Option.Rel (Alike W Q) (f b) (f c)) :
    Cellwise f := by
  intro b c wb wc e
  have := h b.area (fun q => b.cellAt q = c.cellAt q) b c ⟨wb, wc, rfl, e.symm, fun _ h => h⟩
  generalize hb : f b = x, hc : f c = y at this
  cases this with
  | none => exact Or.inl ⟨rfl, rfl⟩
  | some h =>
    obtain ⟨h1, h2, h3, h4, h5⟩ := h
    exact Or.inr ⟨_, _, rfl, rfl, h1, h2, h3, h4.trans e, h5⟩

theorem cellwise_of_alikeP {β : Type} {f : Buffer → Option (Buffer × β)}
    (h : ∀ (W : Rect) (Q : Position → Prop) (b c : Buffer), Alike W Q b c → Option.Rel (AlikeP W Q) (f b) (f c)) :
    Cellwise (fun b => (f b).map Prod.fst) ∧
      ∀ b c : Buffer, b.WF → c.WF → b.area = c.area → (f b).map Prod.snd = (f c).map Prod.snd := by
  refine ⟨cellwise_of_alike fun W Q b c hbc => rel_map (h W Q b c hbc) fun _ _ h => h.1, fun b c wb wc e => ?_⟩
  have := h b.area (fun _ => False) b c ⟨wb, wc, rfl, e.symm, fun _ h => h.elim⟩
  generalize f b = x, f c = y at this
  cases this with
  | none => rfl
  | some h => exact congrArg some h.2

/-- **C101**. Every widget treats every cell by itself: whether it panics, and the state it leaves, does not depend on
what the buffer shows, and what it leaves in a cell depends only on what was in this cell. -/
theorem C101_widgets (u : Uniseg) (area : Rect) :
    (∀ s : Span, Cellwise (s.render u area)) ∧ (∀ l : Line, Cellwise (l.render u area)) ∧
    (∀ t : Text, Cellwise (t.render u area)) ∧ (∀ k : Block, Cellwise (k.render u area)) ∧
    (∀ p : Paragraph, Cellwise (p.render u area)) ∧
    (∀ (l : ListWidget) s, Cellwise (fun b => (l.render u area b s).map Prod.fst) ∧
      ∀ b c : Buffer, b.WF → c.WF → b.area = c.area →
        (l.render u area b s).map Prod.snd = (l.render u area c s).map Prod.snd) ∧
    (∀ t : Tabs, Cellwise (t.render u area)) ∧
    (∀ rnd, ∀ g : Gauge, Cellwise (g.render rnd u area)) ∧
    (∀ rd, ∀ (s : Scroll) st, Cellwise (fun b => s.render rd u area b st)) ∧
    Cellwise (clear area) ∧ (∀ f : Fill, Cellwise (f.render area)) ∧
    (∀ ω fuel, ∀ (i : InputField.Widget) s, Cellwise (fun b => (i.render ω fuel u area b s).map Prod.fst) ∧
      ∀ b c : Buffer, b.WF → c.WF → b.area = c.area →
        (i.render ω fuel u area b s).map Prod.snd = (i.render ω fuel u area c s).map Prod.snd) ∧
    (∀ ω ω' fuel, ∀ p : Popup, Cellwise (fun b => (p.render ω ω' fuel u area b).value)) ∧
    (∀ ω ω' fuel, ∀ (t : Throbber) s, Cellwise (fun b => (t.render ω ω' fuel u area b s).value)) := by
  refine ⟨fun s => cellwise_of_alike fun _ _ _ _ => span u s area, fun l => cellwise_of_alike fun _ _ _ _ => line u l area,
    fun t => cellwise_of_alike fun _ _ _ _ => text u t area, fun k => cellwise_of_alike fun _ _ _ _ => block u k area,
    fun p => cellwise_of_alike fun _ _ _ _ => paragraph u p area,
    fun l s => cellwise_of_alikeP fun _ _ _ _ => list u l area s,
    fun t => cellwise_of_alike fun _ _ _ _ => tabs u t area,
    fun rnd g => cellwise_of_alike fun _ _ _ _ => gauge rnd u g area,
    fun rd s st => cellwise_of_alike fun _ _ _ _ => scroll rd u s area st,
    cellwise_of_alike fun _ _ _ _ => Beside.clear area, fun f => cellwise_of_alike fun _ _ _ _ => fill f area,
    fun ω fuel i s => cellwise_of_alikeP fun _ _ _ _ => input ω fuel u i area s,
    fun ω ω' fuel p => cellwise_of_alike fun W Q b c h => ?_,
    fun ω ω' fuel t s => cellwise_of_alike fun W Q b c h => ?_⟩
  · unfold Popup.render
    cases p.place ω ω' fuel area with
    | panics => exact .none
    | running => exact .none
    | ok a =>
      have := popup u p a h
      dsimp only
      generalize p.draw u a b = x, p.draw u a c = y at this
      cases this with
      | none => exact .none
      | some h => exact .some h
  · unfold Throbber.render
    cases Throbber.frameOf t.set s.frame with
    | none => exact .none
    | some frame =>
      dsimp only
      split
      · exact .none
      · exact .none
      · split
        · exact .none
        · exact .none
        · rename_i a _ _ a' _
          have := text u { newTextStr frame with style := t.style } a' h
          generalize Text.render u { newTextStr frame with style := t.style } a' b = x,
            Text.render u { newTextStr frame with style := t.style } a' c = y at this
          cases this with
          | none => exact .none
          | some h => exact .some h

/-- **C101**. Things drawn one after the other on areas that do not overlap: if one of them panics on the buffer, so
does drawing all of them; else every area shows what is drawn there if nothing else is drawn, and the rest of the
buffer is unchanged. -/
theorem C101_alone (window : Rect) : ∀ (ds : List (Rect × (Buffer → Option Buffer))),
    (∀ d ∈ ds, Cellwise d.2 ∧ Within window d.1 d.2) → ds.Pairwise (fun d e => d.1.Apart e.1) →
    ∀ b : Buffer, b.WF → b.area = window →
    ((∃ d ∈ ds, d.2 b = none) ∧ drawAll (ds.map Prod.snd) b = none) ∨
    ∃ b', drawAll (ds.map Prod.snd) b = some b' ∧ b'.WF ∧ b'.area = window ∧
      (∀ d ∈ ds, ∃ b1, d.2 b = some b1 ∧ ∀ q, d.1.contains q = true → b'.cellAt q = b1.cellAt q) ∧
      ∀ q, (∀ d ∈ ds, d.1.contains q = false) → b'.cellAt q = b.cellAt q
  | [], _, _, b, wf, ha => Or.inr ⟨b, rfl, wf, ha, fun _ h => absurd h List.not_mem_nil, fun _ _ => rfl⟩
  | d :: ds, hd, hp, b, wf, ha => by
    obtain ⟨hp1, hp2⟩ := List.pairwise_cons.1 hp
    obtain ⟨hc, hw⟩ := hd d (List.mem_cons_self ..)
    have hall : drawAll ((d :: ds).map Prod.snd) b = (d.2 b).bind (drawAll (ds.map Prod.snd)) := rfl
    rw [hall]
    rcases hc b b wf wf rfl with ⟨h, _⟩ | ⟨b1, _, h1, _, wf1, _, a1, _, _⟩
    · exact Or.inl ⟨⟨d, List.mem_cons_self .., h⟩, by rw [h]; rfl⟩
    rw [h1, Option.bind_some]
    have hb1 := hw b b1 wf ha h1
    have ih := C101_alone window ds (fun e he => hd e (List.mem_cons_of_mem _ he)) hp2 b1 wf1 (a1.trans ha)
    rcases ih with ⟨⟨e, he, hn⟩, h⟩ | ⟨b', h2, wf', a', hcells, hrest⟩
    · refine Or.inl ⟨⟨e, List.mem_cons_of_mem _ he, ?_⟩, h⟩
      rcases (hd e (List.mem_cons_of_mem _ he)).1 b b1 wf wf1 a1.symm with ⟨h, _⟩ | ⟨_, c', _, h', _⟩
      · exact h
      · rw [hn] at h'; cases h'
    · refine Or.inr ⟨b', h2, wf', a', ?_, ?_⟩
      · intro e he
        rcases List.mem_cons.1 he with rfl | he'
        · refine ⟨b1, h1, fun q hq => hrest q fun d hd => ?_⟩
          exact hp1 d hd q hq
        · obtain ⟨c', hc', hq'⟩ := hcells e he'
          rcases (hd e he).1 b b1 wf wf1 a1.symm with ⟨_, h⟩ | ⟨b2, c2, h3, h4, _, _, _, _, h5⟩
          · rw [hc'] at h; cases h
          · rw [hc'] at h4
            cases h4
            refine ⟨b2, h3, fun q hq => ?_⟩
            rw [hq' q hq, h5 q]
            symm
            apply hb1
            by_contra hcon
            rw [Bool.not_eq_false] at hcon
            rw [hp1 e he' q hcon] at hq
            cases hq
      · intro q hq
        rw [hrest q fun e he => hq e (List.mem_cons_of_mem _ he), hb1 q (hq d (List.mem_cons_self ..))]

/-- **C101**. The order in which things are drawn on areas that do not overlap does not matter. -/
theorem C101_order (window : Rect) (ds es : List (Rect × (Buffer → Option Buffer)))
    (hd : ∀ d ∈ ds, Cellwise d.2 ∧ Within window d.1 d.2) (hp : ds.Pairwise (fun d e => d.1.Apart e.1))
    (hperm : ds.Perm es) (b : Buffer) (wf : b.WF) (ha : b.area = window) :
    drawAll (ds.map Prod.snd) b = drawAll (es.map Prod.snd) b := by
  have hsym : ∀ {d e : Rect × (Buffer → Option Buffer)}, d.1.Apart e.1 → e.1.Apart d.1 := by
    intro d e h q hq
    by_contra hcon
    rw [Bool.not_eq_false] at hcon
    rw [h q hcon] at hq
    cases hq
  have he : ∀ d ∈ es, Cellwise d.2 ∧ Within window d.1 d.2 := fun d h => hd d (hperm.mem_iff.2 h)
  have hp' := hperm.pairwise hp hsym
  rcases C101_alone window ds hd hp b wf ha with ⟨⟨d, hm, hn⟩, h⟩ | ⟨b', h, wf', a', hc, hr⟩
  · rcases C101_alone window es he hp' b wf ha with ⟨_, h'⟩ | ⟨_, _, _, _, hc', _⟩
    · rw [h, h']
    · obtain ⟨_, h2, _⟩ := hc' d (hperm.mem_iff.1 hm)
      rw [hn] at h2; cases h2
  · rcases C101_alone window es he hp' b wf ha with ⟨⟨d, hm, hn⟩, h'⟩ | ⟨c', h', wf'', a'', hc', hr'⟩
    · obtain ⟨_, h2, _⟩ := hc d (hperm.mem_iff.2 hm)
      rw [hn] at h2; cases h2
    · rw [h, h']
      congr 1
      refine wf'.ext wf'' (a'.trans a''.symm) fun q _ => ?_
      by_cases hq : ∃ d ∈ ds, d.1.contains q = true
      · obtain ⟨d, hm, hq⟩ := hq
        obtain ⟨b1, e1, k1⟩ := hc d hm
        obtain ⟨b2, e2, k2⟩ := hc' d (hperm.mem_iff.1 hm)
        rw [e1] at e2
        cases e2
        rw [k1 q hq, k2 q hq]
      · push Not at hq
        rw [hr q fun d hm => by simpa using hq d hm, hr' q fun d hm => by simpa using hq d (hperm.mem_iff.2 hm)]

/-- Rectangles that tile an area do not overlap. -/
theorem tilesFrom_apart (d : Direction) (z : Int) : ∀ (rs : List Rect) (a : Int), Layout.TilesFrom d z a rs →
    rs.Pairwise Rect.Apart ∧ ∀ r ∈ rs, a ≤ Layout.lo d r
  | [], _, _ => ⟨List.Pairwise.nil, fun _ h => absurd h List.not_mem_nil⟩
  | r :: rs, a, ⟨h1, h2, h3⟩ => by
    obtain ⟨ih1, ih2⟩ := tilesFrom_apart d z rs _ h3
    refine ⟨List.pairwise_cons.2 ⟨fun s hs q hq => ?_, ih1⟩, fun s hs => ?_⟩
    · have := ih2 s hs
      by_contra hcon
      rw [Bool.not_eq_false] at hcon
      rw [Rect.contains_iff] at hq hcon
      unfold Rect.Mem at hq hcon
      unfold Layout.lo Layout.extent at *
      cases d <;> simp only at * <;> omega
    · rcases List.mem_cons.1 hs with rfl | hs
      · omega
      · have := ih2 s hs
        omega

/-- **C101**. The segments of a FlexLegacy layout without spacing do not overlap, so what is drawn in them can be drawn
in any order. -/
theorem C101_segments (ω : Nat → Nat) (fuel : Nat) (l : Layout) (area : Rect) (hf : l.flex = .legacy)
    (h0 : Layout.gapOf l.spacing = 0) (hn : 0 < l.constraints.length) (hfew : Layout.Few l)
    (hw : (l.constraints.map Layout.fillWeight).sum ≤ 1000000)
    (segments spacers : List Rect) (hs : Layout.splitWithSpacers ω fuel l area = .ok segments spacers)
    (fs : List (Buffer → Option Buffer)) (b : Buffer) (wf : b.WF)
    (hd : ∀ d ∈ segments.zip fs, Cellwise d.2 ∧ Within b.area d.1 d.2)
    (es : List (Rect × (Buffer → Option Buffer))) (hperm : (segments.zip fs).Perm es) :
    drawAll ((segments.zip fs).map Prod.snd) b = drawAll (es.map Prod.snd) b := by
  refine C101_order b.area _ es hd ?_ hperm b wf rfl
  rcases C19_tiles_partial ω fuel l area hf h0 hn hfew hw with h | ⟨s, p, h, ht⟩
  · rw [hs] at h; cases h
  · rw [hs] at h
    cases h
    have := (tilesFrom_apart _ _ _ _ ht).1
    clear hd hperm hs ht
    induction segments generalizing fs with
    | nil => exact List.Pairwise.nil
    | cons r rs ih =>
      cases fs with
      | nil => exact List.Pairwise.nil
      | cons f fs =>
        obtain ⟨t1, t2⟩ := List.pairwise_cons.1 this
        exact List.pairwise_cons.2 ⟨fun e he => t1 _ (List.of_mem_zip he).1, ih fs t2⟩

/-- A block, without or with anything in it, stays in its area, and so does a fill. -/
theorem within_block (u : Uniseg) (k : Block) (area window : Rect)
    (hin : ∀ b : Buffer, b.area = window → Inside b area) (hx : 0 ≤ area.x) :
    Within window area (k.render u area) := by
  intro b b' wf ha h q hq
  obtain ⟨c, e, _, _, h1, _⟩ := C43_frame_only_partial u k area b wf (hin b ha) hx
  rw [h] at e
  cases e
  exact h1 q hq

theorem within_fill (f : Fill) (area window : Rect)
    (hin : ∀ q, area.contains q = true → window.contains q = true) : Within window area (f.render area) := by
  intro b b' wf ha h q hq
  obtain ⟨c, e, _, _, h1⟩ := C49_fill_partial f area b wf (by rw [ha]; exact hin)
  rw [h] at e
  cases e
  rw [h1, if_neg (by rw [hq]; decide)]

/-- Two blocks and a fill side by side meet the hypotheses, and give the same picture in both orders. -/
example :
    let ds : List (Rect × (Buffer → Option Buffer)) :=
      [(⟨0, 0, 3, 2⟩, Block.new.bordered.render Uniseg.simple ⟨0, 0, 3, 2⟩),
       (⟨3, 0, 2, 2⟩, Block.new.bordered.render Uniseg.simple ⟨3, 0, 2, 2⟩),
       (⟨5, 0, 1, 2⟩, (Fill.new "x").render ⟨5, 0, 1, 2⟩)]
    (∀ d ∈ ds, Cellwise d.2 ∧ Within ⟨0, 0, 6, 2⟩ d.1 d.2) ∧ ds.Pairwise (fun d e => d.1.Apart e.1) := by
  refine ⟨?_, ?_⟩
  · simp only [List.mem_cons, List.not_mem_nil, or_false, forall_eq_or_imp, forall_eq]
    refine ⟨⟨(C101_widgets _ _).2.2.2.1 _, ?_⟩, ⟨(C101_widgets _ _).2.2.2.1 _, ?_⟩,
      (C101_widgets Uniseg.simple _).2.2.2.2.2.2.2.2.2.2.1 _, ?_⟩
    · exact within_block _ _ _ _ (fun b hb => by unfold Inside; rw [hb]; decide) (by decide)
    · exact within_block _ _ _ _ (fun b hb => by unfold Inside; rw [hb]; decide) (by decide)
    · refine within_fill _ _ _ fun q hq => ?_
      rw [Rect.contains_iff] at *
      unfold Rect.Mem at *
      simp only at *
      omega
  · simp only [List.pairwise_cons, List.mem_cons, List.not_mem_nil, or_false, forall_eq_or_imp, forall_eq,
      List.Pairwise.nil, and_true, IsEmpty.forall_iff, implies_true]
    refine ⟨⟨?_, ?_⟩, ?_⟩ <;>
    · intro q hq
      by_contra hcon
      rw [Bool.not_eq_false] at hcon
      rw [Rect.contains_iff] at *
      unfold Rect.Mem at *
      simp only at *
      omega

example :
    ((drawAll [Block.new.bordered.render Uniseg.simple ⟨0, 0, 3, 2⟩, (Fill.new "x").render ⟨3, 0, 1, 2⟩]
      ⟨⟨0, 0, 4, 2⟩, List.replicate 8 Cell.empty⟩).map fun b => b.content.map Cell.symbol) =
      some ["┌", "─", "┐", "x", "└", "─", "┘", "x"] := by decide +kernel

end Bento
