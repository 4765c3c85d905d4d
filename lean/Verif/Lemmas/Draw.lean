import Verif.Spec.Terminal
import Verif.Lemmas.Modifier
import Verif.Props.Ansi
import Verif.Props.Diff

/-! # Helper lemmas: the effect of `DefaultBackend.Draw` on the emulator -/

namespace Bento

theorem Screen.eta (sc : Screen) : { sc with cx := sc.cx } = sc := rfl

/-- The reported position of a cell lies on the screen, with the second half of a wide symbol. -/
structure OnScreen (u : Uniseg) (cols rows : Int) (pc : PositionedCell) : Prop where
  x : 0 ≤ pc.pos.x
  y : 0 ≤ pc.pos.y
  right : pc.pos.x + u.width pc.cell.symbol ≤ cols
  bottom : pc.pos.y < rows
  single : u.graphemes pc.cell.symbol = [pc.cell.symbol]
  width : u.width pc.cell.symbol = 1 ∨ u.width pc.cell.symbol = 2

theorem plain_zero : Modifier.Plain 0 := by
  refine ⟨by decide, fun i _ => by simp, by decide⟩

theorem plain_transition {a b : Modifier} (ha : Modifier.Plain a) (hb : Modifier.Plain b) :
    (modifierDiff a b).foldl attrStep a = b := by
  apply modifierDiff_attrs
  · rintro ⟨h1, _, h3, _⟩; exact ha.2.2 ⟨h1, h3⟩
  · rintro ⟨h1, _, h3, _⟩; exact ha.2.2 ⟨h3, h1⟩
  · intro i hi
    rcases hi with rfl | hi
    · rw [ha.1, hb.1]
    · rw [ha.2.1 i hi, hb.2.1 i hi]

theorem print_effect (j : Junk) (u : Uniseg) (T : Termenv) (sc : Screen) (pc : PositionedCell)
    (h : OnScreen u sc.cols sc.rows pc) (hx : sc.cx = pc.pos.x) (hy : sc.cy = pc.pos.y) :
    Command.effect j u T sc (.print pc.cell.symbol) =
      { sc with
        grid := sc.grid.put j pc.pos pc.cell.symbol (decide (u.width pc.cell.symbol = 2)) sc.pen
        cx := pc.pos.x + u.width pc.cell.symbol } := by
  have hr := h.right
  have hpos : (⟨pc.pos.x, pc.pos.y⟩ : Position) = pc.pos := rfl
  simp only [Command.effect, Screen.putText, h.single, List.foldl_cons, List.foldl_nil,
    Screen.putCluster]
  rcases h.width with hw | hw
  · rw [hw] at hr ⊢
    have : ¬ (pc.pos.x + 1 > sc.cols) := by omega
    simp [hx, hy, this, hpos]
  · rw [hw] at hr ⊢
    have : ¬ (pc.pos.x + 2 > sc.cols) := by omega
    simp [hx, hy, this, hpos]

theorem clampInt_id {lo hi x : Int} (h1 : lo ≤ x) (h2 : x ≤ hi) : clampInt lo hi x = x := by
  unfold clampInt; omega

theorem colours_effect (j : Junk) (u : Uniseg) (T : Termenv) (sc : Screen) (f b : Color)
    (hf : ((T.convert f).bind (Color.shown T)).isSome = true)
    (hb : ((T.convert b).bind (Color.shown T)).isSome = true) :
    Command.effect j u T sc (.setColors (T.convert f) (T.convert b)) =
      { sc with pen := penOf' T f b sc.pen.attrs } ∧
    (Command.setColors (T.convert f) (T.convert b)).Ok T := by
  cases h1 : T.convert f with
  | none => rw [h1] at hf; simp at hf
  | some f' =>
    cases h2 : T.convert b with
    | none => rw [h2] at hb; simp at hb
    | some b' =>
      rw [h1] at hf; rw [h2] at hb
      simp only [Option.bind_some] at hf hb
      obtain ⟨tf, htf⟩ := Option.isSome_iff_exists.1 hf
      obtain ⟨tb, htb⟩ := Option.isSome_iff_exists.1 hb
      refine ⟨?_, ?_⟩
      · simp [Command.effect, penOf', h1, h2, htf, htb]
      · simp [Command.Ok, htf, htb]

/-- The loop of `Draw` writes every update at its place in its rendition. -/
theorem drawLoop_effect (j : Junk) (u : Uniseg) (T : Termenv) (S : String → Prop)
    (ups : List PositionedCell) : ∀ (lastPos : Option Position) (m : Modifier) (fg bg : Color)
    (sc : Screen),
    (∀ pc ∈ ups, pc.cell.Displayable T S ∧ OnScreen u sc.cols sc.rows pc) →
    (∀ a ∈ ups, ∀ b ∈ ups, b.pos = ⟨a.pos.x + 1, a.pos.y⟩ → u.width a.cell.symbol = 1) →
    (∀ p pc rest, lastPos = some p → ups = pc :: rest → p.x + 1 = pc.pos.x → p.y = pc.pos.y →
      sc.cx = pc.pos.x ∧ sc.cy = pc.pos.y) →
    sc.pen = penOf' T fg bg m → Modifier.Plain m →
    ∃ cx cy pen, (drawLoop T ups lastPos m fg bg).foldl (Command.effect j u T) sc =
      { sc with grid := sc.grid.apply j u (penOf T) ups, cx := cx, cy := cy, pen := pen } := by
  induction ups with
  | nil =>
    intro lastPos m fg bg sc _ _ _ _ _
    exact ⟨sc.cx, sc.cy, sc.pen, rfl⟩
  | cons pc rest ih =>
    intro lastPos m fg bg sc hok hchain hcur hpen hpl
    obtain ⟨hd, hs⟩ := hok pc (by simp)
    have hx := hs.x
    have hy := hs.y
    have hr := hs.right
    have hb := hs.bottom
    have hw1 : 1 ≤ u.width pc.cell.symbol := by rcases hs.width with h | h <;> omega
    simp only [drawLoop, List.foldl_append]
    -- movement
    have e1 : (if needMove lastPos pc.pos.x pc.pos.y = true
        then [Command.moveTo pc.pos.x pc.pos.y] else []).foldl (Command.effect j u T) sc =
        { sc with cx := pc.pos.x, cy := pc.pos.y } := by
      by_cases hm : needMove lastPos pc.pos.x pc.pos.y = true
      · rw [if_pos hm]
        simp only [List.foldl_cons, List.foldl_nil, Command.effect]
        rw [clampInt_id hx (by omega), clampInt_id hy (by omega)]
      · rw [if_neg hm]
        cases lastPos with
        | none => simp [needMove] at hm
        | some p =>
          simp only [needMove, ne_eq, Bool.or_eq_true, decide_eq_true_eq, not_or, Decidable.not_not] at hm
          obtain ⟨h1, h2⟩ := hcur p pc rest rfl rfl hm.1 hm.2
          rw [← h1, ← h2]; rfl
    rw [e1]
    -- modifiers
    have e2 : (if pc.cell.modifier ≠ m then modifierDiff m pc.cell.modifier else []).foldl
        (Command.effect j u T) { sc with cx := pc.pos.x, cy := pc.pos.y } =
        { sc with cx := pc.pos.x, cy := pc.pos.y, pen := penOf' T fg bg pc.cell.modifier } := by
      by_cases hm : pc.cell.modifier ≠ m
      · rw [if_pos hm, effects_attr j u T _ (fun c hc => (modifierDiff_isAttr _ _ c hc).1)]
        simp only [hpen]
        have := plain_transition hpl hd.plain
        simp only [penOf', this]
      · rw [if_neg hm]
        rw [Decidable.not_not] at hm
        rw [hm, ← hpen]; rfl
    rw [e2]
    have e3 : (if pc.cell.fg ≠ fg ∨ pc.cell.bg ≠ bg then
          [Command.setColors (T.convert pc.cell.fg) (T.convert pc.cell.bg)] else []).foldl
        (Command.effect j u T)
        { sc with cx := pc.pos.x, cy := pc.pos.y, pen := penOf' T fg bg pc.cell.modifier } =
        { sc with cx := pc.pos.x, cy := pc.pos.y, pen := penOf T pc.cell } := by
      by_cases hm : pc.cell.fg ≠ fg ∨ pc.cell.bg ≠ bg
      · rw [if_pos hm]
        simp only [List.foldl_cons, List.foldl_nil]
        rw [(colours_effect j u T _ _ _ hd.fg hd.bg).1]
        rfl
      · rw [if_neg hm]
        rw [not_or, Decidable.not_not, Decidable.not_not] at hm
        simp only [List.foldl_nil, penOf, hm.1, hm.2]
    rw [e3]
    simp only [List.foldl_cons, List.foldl_nil]
    have hs' : OnScreen u ({ sc with cx := pc.pos.x, cy := pc.pos.y, pen := penOf T pc.cell } : Screen).cols
      ({ sc with cx := pc.pos.x, cy := pc.pos.y, pen := penOf T pc.cell } : Screen).rows pc := hs
    rw [print_effect j u T _ pc hs' rfl rfl]
    obtain ⟨cx, cy, pen, he⟩ := ih (some ⟨pc.pos.x, pc.pos.y⟩) pc.cell.modifier pc.cell.fg pc.cell.bg
      { sc with
        cx := pc.pos.x + u.width pc.cell.symbol, cy := pc.pos.y, pen := penOf T pc.cell
        grid := sc.grid.put j pc.pos pc.cell.symbol (decide (u.width pc.cell.symbol = 2))
          (penOf T pc.cell) }
      (fun p hp => hok p (by simp [hp]))
      (fun a ha b hb => hchain a (by simp [ha]) b (by simp [hb]))
      (by
        intro p pc' rest' h1 h2 h3 h4
        injection h1 with h1
        subst h1
        have hm : pc' ∈ rest := by rw [h2]; simp
        have := hchain pc (by simp) pc' (by simp [hm]) (by
          ext
          · exact h3.symm
          · exact h4.symm)
        simp only at h3 h4 ⊢
        rw [this]
        exact ⟨h3, h4⟩)
      rfl hd.plain
    refine ⟨cx, cy, pen, ?_⟩
    rw [he]
    rfl

/-- `Draw` ends with a neutral pen whatever was before. -/
theorem drawCommands_pen (j : Junk) (u : Uniseg) (T : Termenv) (ups : List PositionedCell)
    (sc : Screen) :
    ((drawCommands T ups).foldl (Command.effect j u T) sc).pen = Pen.neutral := by
  simp [drawCommands, List.foldl_append, Command.effect, Attr.meaning]

theorem drawCommands_effect (j : Junk) (u : Uniseg) (T : Termenv) (S : String → Prop)
    (hr : T.convert .reset = some .reset) (ups : List PositionedCell) (sc : Screen)
    (hok : ∀ pc ∈ ups, pc.cell.Displayable T S ∧ OnScreen u sc.cols sc.rows pc)
    (hchain : ∀ a ∈ ups, ∀ b ∈ ups, b.pos = ⟨a.pos.x + 1, a.pos.y⟩ → u.width a.cell.symbol = 1)
    (hpen : sc.pen = Pen.neutral) :
    ∃ cx cy, (drawCommands T ups).foldl (Command.effect j u T) sc =
      { sc with grid := sc.grid.apply j u (penOf T) ups, cx := cx, cy := cy } := by
  obtain ⟨cx, cy, pen, he⟩ := drawLoop_effect j u T S ups none 0 .reset .reset sc hok hchain
    (by intro p pc rest h; cases h) (by rw [hpen]; simp [penOf', hr, Color.shown, Pen.neutral])
    plain_zero
  refine ⟨cx, cy, ?_⟩
  rw [drawCommands, List.foldl_append, he]
  simp only [List.foldl_cons, List.foldl_nil, Command.effect, Attr.meaning, Option.getD_some]
  rw [← hpen]

theorem drawLoop_ok (T : Termenv) (S : String → Prop) (ups : List PositionedCell) :
    ∀ (lastPos : Option Position) (m : Modifier) (fg bg : Color),
    (∀ pc ∈ ups, pc.cell.Displayable T S ∧ 0 ≤ pc.pos.x ∧ 0 ≤ pc.pos.y) →
    ∀ c ∈ drawLoop T ups lastPos m fg bg, c.Ok T ∧ ∀ s, c = .print s → S s := by
  induction ups with
  | nil => intro _ _ _ _ _ c hc; simp [drawLoop] at hc
  | cons pc rest ih =>
    intro lastPos m fg bg hok c hc
    obtain ⟨hd, hx, hy⟩ := hok pc (by simp)
    simp only [drawLoop, List.mem_append] at hc
    rcases hc with (((hc | hc) | hc) | hc) | hc
    · split at hc
      · simp only [List.mem_singleton] at hc; subst hc; exact ⟨⟨hx, hy⟩, by simp⟩
      · simp at hc
    · split at hc
      · have := modifierDiff_isAttr _ _ c hc
        refine ⟨this.2 T, ?_⟩
        rintro s rfl
        exact absurd this.1 (by simp [Command.IsAttr])
      · simp at hc
    · split at hc
      · simp only [List.mem_singleton] at hc
        subst hc
        exact ⟨(colours_effect default Uniseg.simple T ⟨0, 0, Grid.blank, 0, 0, Pen.neutral, true,
          true, Grid.blank, true⟩ _ _ hd.fg hd.bg).2, by simp⟩
      · simp at hc
    · simp only [List.mem_singleton] at hc
      subst hc
      refine ⟨hd.printable, ?_⟩
      intro s hs
      injection hs with hs
      rw [← hs]; exact hd.sym
    · exact ih _ _ _ _ (fun p hp => hok p (by simp [hp])) c hc

theorem drawCommands_ok (T : Termenv) (S : String → Prop) (ups : List PositionedCell)
    (hok : ∀ pc ∈ ups, pc.cell.Displayable T S ∧ 0 ≤ pc.pos.x ∧ 0 ≤ pc.pos.y) :
    ∀ c ∈ drawCommands T ups, c.Ok T ∧ ∀ s, c = .print s → S s := by
  intro c hc
  simp only [drawCommands, List.mem_append, List.mem_cons, List.not_mem_nil, or_false] at hc
  rcases hc with hc | rfl | rfl
  · exact drawLoop_ok T S ups _ _ _ _ hok c hc
  · exact ⟨⟨rfl, rfl⟩, by simp⟩
  · exact ⟨rfl, by simp⟩

end Bento
