import Verif.Spec.Lazygit
import Verif.Props.Layout

/-!
# The areas of the example program
-/

namespace Bento.Lazygit

open Layout

theorem inner_none (area : Rect) (hw : 0 ≤ area.width) (hh : 0 ≤ area.height) : area.inner ⟨0, 0, 0, 0⟩ = area := by
  unfold Rect.inner
  simp only [Int.add_zero, Int.sub_zero]
  rw [if_neg (by omega)]
  ext <;> simp only <;> omega

/-- What the layouts of the program have in common. -/
structure Usual (l : Layout) : Prop where
  flex : l.flex = .legacy
  spacing : gapOf l.spacing = 0
  padding : l.padding = ⟨0, 0, 0, 0⟩
  few : Few l
  weights : (l.constraints.map fillWeight).sum ≤ 90000

theorem split_fits {split : Split} (hs : Splits split) {l : Layout} (hl : Usual l) (area : Rect)
    (hw : 0 ≤ area.width) (hh : 0 ≤ area.height) :
    (split l area).length = l.constraints.length ∧ ∀ r ∈ split l area, Fits l.direction area r := by
  obtain ⟨ω, fuel, sp, e⟩ := hs l area hl.few
  rcases C18_well_formed_partial ω fuel l area hl.few with h | ⟨a, b, h, k1, _, k3⟩
  · rw [e] at h; cases h
  · rw [e] at h
    cases h
    rw [hl.padding, inner_none area hw hh] at k3
    exact ⟨k1, fun r hr => k3 r (.inl hr)⟩

theorem split_shares {split : Split} (hs : Splits split) {l : Layout} (hl : Usual l) (area : Rect)
    (hw : 0 ≤ area.width) (hh : 0 ≤ area.height)
    (hlf : ∀ c ∈ l.constraints, (∃ t, c = .len t ∧ 0 ≤ t) ∨ ∃ k, c = .fill k)
    (hfit : (l.constraints.map lenOf).sum ≤ extent l.direction area)
    (hfill : ∃ k, Constraint.fill k ∈ l.constraints) :
    ∀ i r, (split l area)[i]? = some r →
      |(lo l.direction r : ℚ) - (lo l.direction area + idealStart l.constraints (extent l.direction area) i)| ≤ 505 / 1000 ∧
      |((lo l.direction r + extent l.direction r : Int) : ℚ) -
        (lo l.direction area + idealStart l.constraints (extent l.direction area) (i + 1))| ≤ 505 / 1000 := by
  obtain ⟨ω, fuel, sp, e⟩ := hs l area hl.few
  rcases C61_fill_shares_partial ω fuel l area hl.flex hl.spacing hl.few hl.weights hlf
    (by rw [hl.padding, inner_none area hw hh]; exact hfit) hfill with h | ⟨a, b, h, k⟩
  · rw [e] at h; cases h
  · rw [e] at h
    cases h
    rw [hl.padding, inner_none area hw hh] at k
    exact k

/-- A whole number near another one is that one. -/
theorem near_eq {a b : Int} (h : |(a : ℚ) - b| ≤ 505 / 1000) : a = b := by
  have : |(a - b : Int)| < 1 := by
    have : |((a - b : Int) : ℚ)| < 1 := by
      push_cast
      exact lt_of_le_of_lt h (by norm_num)
    exact_mod_cast this
  have := Int.abs_lt_one_iff.1 this
  omega

/-- A whole number near a third. -/
theorem near_third {a b c : Int} (h : |(a : ℚ) - (b + (c : ℚ) / 3)| ≤ 505 / 1000) : a = b + (c + 1) / 3 := by
  have h3 : |((3 * (a - b) - c : Int) : ℚ)| < 2 := by
    push_cast
    have : (3 * ((a : ℚ) - b) - c) = 3 * ((a : ℚ) - (b + (c : ℚ) / 3)) := by ring
    rw [this, abs_mul]
    calc |(3 : ℚ)| * |(a : ℚ) - (b + (c : ℚ) / 3)| ≤ 3 * (505 / 1000) := by
          rw [show |(3 : ℚ)| = 3 from abs_of_pos (by norm_num)]
          linarith
      _ < 2 := by norm_num
  have h4 : |(3 * (a - b) - c : Int)| < 2 := by exact_mod_cast h3
  have := abs_lt.1 h4
  omega

theorem usual_screen : Usual screenLayout := ⟨rfl, rfl, rfl, by decide, by decide⟩
theorem usual_primary : Usual primaryLayout := ⟨rfl, rfl, rfl, by decide, by decide⟩

theorem usual_right (m : Model) : Usual (rightLayout m) := by
  unfold rightLayout commandLogHeight
  split_ifs <;> exact ⟨rfl, rfl, rfl, by decide, by decide⟩

theorem usual_sidebar (m : Model) : Usual (sidebarLayout m) := by
  refine ⟨rfl, rfl, rfl, ?_, ?_⟩
  · unfold sidebarLayout statusConstraint filesConstraint branchesConstraint commitsConstraint stashConstraint
    simp only
    split_ifs <;> decide
  · unfold sidebarLayout statusConstraint filesConstraint branchesConstraint commitsConstraint stashConstraint
    simp only
    split_ifs <;> decide

theorem list_two {α : Type} {l : List α} (h : l.length = 2) : ∃ a b, l = [a, b] := by
  rcases l with _ | ⟨a, _ | ⟨b, _ | ⟨c, l⟩⟩⟩ <;> simp at h
  exact ⟨a, b, rfl⟩

theorem list_five {α : Type} {l : List α} (h : l.length = 5) : ∃ a b c d e, l = [a, b, c, d, e] := by
  rcases l with _ | ⟨a, _ | ⟨b, _ | ⟨c, _ | ⟨d, _ | ⟨e, _ | ⟨f, l⟩⟩⟩⟩⟩⟩ <;> simp at h
  exact ⟨a, b, c, d, e, rfl⟩

theorem share_one : shareOf (.fill 1) = 1 := by unfold shareOf; norm_num
theorem share_two : shareOf (.fill 2) = 2 := by unfold shareOf; norm_num
theorem share_len (t : Int) : shareOf (.len t) = 0 := rfl

/-- Rows whose bounds are determined. -/
theorem rows_of {split : Split} (hs : Splits split) {l : Layout} (hl : Usual l) (hd : l.direction = .vertical) (area : Rect)
    (hw : 0 ≤ area.width) (hh : 0 ≤ area.height)
    (hlf : ∀ c ∈ l.constraints, (∃ t, c = .len t ∧ 0 ≤ t) ∨ ∃ k, c = .fill k)
    (hfit : (l.constraints.map lenOf).sum ≤ area.height) (hfill : ∃ k, Constraint.fill k ∈ l.constraints)
    (B : Nat → Int) (hB : ∀ i ≤ l.constraints.length, ∀ a : Int,
      |(a : ℚ) - (area.y + idealStart l.constraints area.height i)| ≤ 505 / 1000 → a = area.y + B i) :
    split l area = (List.range l.constraints.length).map fun i =>
      (⟨area.x, area.y + B i, area.width, B (i + 1) - B i⟩ : Rect) := by
  obtain ⟨hlen, hfits⟩ := split_fits hs hl area hw hh
  have hshare := split_shares hs hl area hw hh hlf (by rw [hd]; exact hfit) hfill
  rw [hd] at hfits hshare
  apply List.ext_getElem?
  intro i
  by_cases hi : i < l.constraints.length
  · rw [List.getElem?_eq_getElem (by omega), List.getElem?_map, List.getElem?_range hi, Option.map_some]
    have hm := List.getElem_mem (l := split l area) (n := i) (by omega)
    have hg := List.getElem?_eq_getElem (l := split l area) (i := i) (by omega)
    obtain ⟨k1, k2⟩ := hshare i _ hg
    obtain ⟨f1, f2, f3, f4, f5⟩ := hfits _ hm
    generalize (split l area)[i] = r at *
    have a1 := hB i (by omega) _ k1
    have a2 := hB (i + 1) (by omega) _ k2
    simp only [lo, extent] at *
    congr 1
    ext <;> simp only <;> omega
  · rw [List.getElem?_eq_none (by omega), List.getElem?_eq_none (by simp; omega)]

/-- Columns whose bounds are determined. -/
theorem columns_of {split : Split} (hs : Splits split) {l : Layout} (hl : Usual l) (hd : l.direction = .horizontal)
    (area : Rect) (hw : 0 ≤ area.width) (hh : 0 ≤ area.height)
    (hlf : ∀ c ∈ l.constraints, (∃ t, c = .len t ∧ 0 ≤ t) ∨ ∃ k, c = .fill k)
    (hfit : (l.constraints.map lenOf).sum ≤ area.width) (hfill : ∃ k, Constraint.fill k ∈ l.constraints)
    (B : Nat → Int) (hB : ∀ i ≤ l.constraints.length, ∀ a : Int,
      |(a : ℚ) - (area.x + idealStart l.constraints area.width i)| ≤ 505 / 1000 → a = area.x + B i) :
    split l area = (List.range l.constraints.length).map fun i =>
      (⟨area.x + B i, area.y, B (i + 1) - B i, area.height⟩ : Rect) := by
  obtain ⟨hlen, hfits⟩ := split_fits hs hl area hw hh
  have hshare := split_shares hs hl area hw hh hlf (by rw [hd]; exact hfit) hfill
  rw [hd] at hfits hshare
  apply List.ext_getElem?
  intro i
  by_cases hi : i < l.constraints.length
  · rw [List.getElem?_eq_getElem (by omega), List.getElem?_map, List.getElem?_range hi, Option.map_some]
    have hm := List.getElem_mem (l := split l area) (n := i) (by omega)
    have hg := List.getElem?_eq_getElem (l := split l area) (i := i) (by omega)
    obtain ⟨k1, k2⟩ := hshare i _ hg
    obtain ⟨f1, f2, f3, f4, f5⟩ := hfits _ hm
    generalize (split l area)[i] = r at *
    have a1 := hB i (by omega) _ k1
    have a2 := hB (i + 1) (by omega) _ k2
    simp only [lo, extent] at *
    congr 1
    ext <;> simp only <;> omega
  · rw [List.getElem?_eq_none (by omega), List.getElem?_eq_none (by simp; omega)]

/-- Bounds that are whole numbers are determined. -/
theorem whole_bound {y a b : Int} {s : ℚ} (hs : s = b) (h : |(a : ℚ) - (y + s)| ≤ 505 / 1000) : a = y + b := by
  apply near_eq
  rw [hs] at h
  push_cast
  exact h

theorem third_bound {y a c : Int} {s : ℚ} (hs : s = (c : ℚ) / 3) (h : |(a : ℚ) - (y + s)| ≤ 505 / 1000) :
    a = y + (c + 1) / 3 := by
  apply near_third
  rw [hs] at h
  exact h

theorem screen_areas {split : Split} (hs : Splits split) (area : Rect) (hw : 0 ≤ area.width) (hh : 1 ≤ area.height) :
    split screenLayout area =
      [⟨area.x, area.y, area.width, area.height - 1⟩, ⟨area.x, area.y + (area.height - 1), area.width, 1⟩] := by
  have h := rows_of hs usual_screen rfl area hw (by omega)
    (by
      intro c hc
      simp only [screenLayout, Layout.new, List.mem_cons, List.not_mem_nil, or_false] at hc
      rcases hc with rfl | rfl
      · exact .inr ⟨1, rfl⟩
      · exact .inl ⟨1, rfl, by decide⟩)
    (by show (0 + (1 + 0) : Int) ≤ area.height; omega) ⟨1, List.mem_cons_self ..⟩
    (fun i => if i = 0 then 0 else if i = 1 then area.height - 1 else area.height) (by
      intro i hi a ha
      have : i = 0 ∨ i = 1 ∨ i = 2 := by simp [screenLayout, Layout.new] at hi; omega
      rcases this with rfl | rfl | rfl
      · exact whole_bound (by simp [idealStart]) ha
      · exact whole_bound (by simp [idealStart, screenLayout, Layout.new, idealSize, lenOf, share_one, share_len]) ha
      · exact whole_bound (by simp [idealStart, screenLayout, Layout.new, idealSize, lenOf, share_one, share_len]) ha)
  rw [h]
  show [_, _] = _
  simp

theorem primary_areas {split : Split} (hs : Splits split) (area : Rect) (hw : 0 ≤ area.width) (hh : 0 ≤ area.height) :
    split primaryLayout area =
      [⟨area.x, area.y, sideWidth area.width, area.height⟩,
        ⟨area.x + sideWidth area.width, area.y, area.width - sideWidth area.width, area.height⟩] := by
  have h := columns_of hs usual_primary rfl area hw (by omega)
    (by
      intro c hc
      simp only [primaryLayout, Layout.Call.apply, Layout.new, List.mem_cons, List.not_mem_nil, or_false] at hc
      rcases hc with rfl | rfl
      · exact .inr ⟨1, rfl⟩
      · exact .inr ⟨2, rfl⟩)
    (by show (0 + (0 + 0) : Int) ≤ area.width; omega) ⟨1, List.mem_cons_self ..⟩
    (fun i => if i = 0 then 0 else if i = 1 then (area.width + 1) / 3 else area.width) (by
      intro i hi a ha
      have : i = 0 ∨ i = 1 ∨ i = 2 := by simp [primaryLayout, Layout.Call.apply, Layout.new] at hi; omega
      rcases this with rfl | rfl | rfl
      · exact whole_bound (by simp [idealStart]) ha
      · exact third_bound (by
          simp [idealStart, primaryLayout, Layout.Call.apply, Layout.new, idealSize, lenOf, share_one, share_two]
          norm_num) ha
      · exact whole_bound (by
          simp [idealStart, primaryLayout, Layout.Call.apply, Layout.new, idealSize, lenOf, share_one, share_two]
          ring) ha)
  rw [h]
  show [_, _] = _
  simp [sideWidth]

theorem right_areas {split : Split} (hs : Splits split) (m : Model) (area : Rect) (hw : 0 ≤ area.width)
    (hh : commandLogHeight m ≤ area.height) :
    split (rightLayout m) area =
      [⟨area.x, area.y, area.width, area.height - commandLogHeight m⟩,
        ⟨area.x, area.y + (area.height - commandLogHeight m), area.width, commandLogHeight m⟩] := by
  have hpos : 0 ≤ commandLogHeight m := by unfold commandLogHeight; split_ifs <;> omega
  have h := rows_of hs (usual_right m) rfl area hw (by omega)
    (by
      intro c hc
      simp only [rightLayout, Layout.new, List.mem_cons, List.not_mem_nil, or_false] at hc
      rcases hc with rfl | rfl
      · exact .inr ⟨1, rfl⟩
      · exact .inl ⟨_, rfl, hpos⟩)
    (by show (0 + (commandLogHeight m + 0) : Int) ≤ area.height; omega) ⟨1, List.mem_cons_self ..⟩
    (fun i => if i = 0 then 0 else if i = 1 then area.height - commandLogHeight m else area.height) (by
      intro i hi a ha
      have : i = 0 ∨ i = 1 ∨ i = 2 := by simp [rightLayout, Layout.new] at hi; omega
      rcases this with rfl | rfl | rfl
      · exact whole_bound (by simp [idealStart]) ha
      · exact whole_bound (by simp [idealStart, rightLayout, Layout.new, idealSize, lenOf, share_one, share_len]) ha
      · exact whole_bound (by simp [idealStart, rightLayout, Layout.new, idealSize, lenOf, share_one, share_len]) ha)
  rw [h]
  show [_, _] = _
  simp

theorem sidebar_tall (m : Model) (h : 30 < m.height) :
    (sidebarLayout m).constraints = [.len 3, .fill 1, .fill 1, .fill 1, .len 3] := by
  unfold sidebarLayout statusConstraint filesConstraint branchesConstraint commitsConstraint stashConstraint heightMedium
  simp [Layout.new, h]

/-- The rows of the sidebar if the list of its constraints and the sums of the heights fit together. -/
theorem sidebar_of {split : Split} (hs : Splits split) (m : Model) (area : Rect) (hw : 0 ≤ area.width) (hh : 0 ≤ area.height)
    (cs : List Constraint) (hc : (sidebarLayout m).constraints = cs) (heights : List Int) (h5 : cs.length = 5)
    (h5' : heights.length = 5)
    (hlf : ∀ c ∈ cs, (∃ t, c = .len t ∧ 0 ≤ t) ∨ ∃ k, c = .fill k)
    (hfit : (cs.map lenOf).sum ≤ area.height) (hfill : ∃ k, Constraint.fill k ∈ cs)
    (hB : ∀ i ≤ 5, ∀ a : Int,
      |(a : ℚ) - (area.y + idealStart cs area.height i)| ≤ 505 / 1000 → a = area.y + (heights.take i).sum) :
    split (sidebarLayout m) area = (List.range 5).map fun i =>
      (⟨area.x, area.y + (heights.take i).sum, area.width, heights[i]?.getD 0⟩ : Rect) := by
  have h := rows_of hs (usual_sidebar m) rfl area hw hh (by rw [hc]; exact hlf) (by rw [hc]; exact hfit)
    (by rw [hc]; exact hfill) (fun i => (heights.take i).sum) (by rw [hc, h5]; exact hB)
  rw [h, hc, h5]
  apply List.map_congr_left
  intro i hi
  rw [List.mem_range] at hi
  congr 1
  rw [List.take_add_one, List.sum_append, List.getElem?_eq_getElem (by omega)]
  simp

theorem sidebar_one {split : Split} (hs : Splits split) (m : Model) (area : Rect) (hw : 0 ≤ area.width)
    (k : Int) (hk : 0 ≤ k) (hh : 4 * k ≤ area.height) (p : Nat) (hp : p < 5)
    (hc : (sidebarLayout m).constraints = [0, 1, 2, 3, 4].map fun i : Nat => if i = p then .fill 1 else .len k) :
    split (sidebarLayout m) area = (List.range 5).map fun i =>
      (⟨area.x, area.y + (((([0, 1, 2, 3, 4].map fun i : Nat => if i = p then area.height - 4 * k else k) : List Int)).take i).sum,
        area.width, ((([0, 1, 2, 3, 4].map fun i : Nat => if i = p then area.height - 4 * k else k) : List Int))[i]?.getD 0⟩ : Rect) := by
  refine sidebar_of hs m area hw (by omega) _ hc _ rfl rfl ?_ ?_ ?_ ?_
  · intro c hc
    obtain ⟨i, _, rfl⟩ := List.mem_map.1 hc
    by_cases h : i = p
    · rw [if_pos h]; exact .inr ⟨1, rfl⟩
    · rw [if_neg h]; exact .inl ⟨k, rfl, hk⟩
  · have : p = 0 ∨ p = 1 ∨ p = 2 ∨ p = 3 ∨ p = 4 := by omega
    rcases this with rfl | rfl | rfl | rfl | rfl <;> simp [lenOf] <;> omega
  · refine ⟨1, List.mem_map.2 ⟨p, ?_, if_pos rfl⟩⟩
    simp; omega
  · intro i hi a ha
    have h1 : p = 0 ∨ p = 1 ∨ p = 2 ∨ p = 3 ∨ p = 4 := by omega
    have h2 : i = 0 ∨ i = 1 ∨ i = 2 ∨ i = 3 ∨ i = 4 ∨ i = 5 := by omega
    rcases h1 with rfl | rfl | rfl | rfl | rfl <;>
      rcases h2 with rfl | rfl | rfl | rfl | rfl | rfl <;>
      exact whole_bound (by simp [idealStart, idealSize, lenOf, share_one, share_len] <;> ring) ha

theorem sidebar_areas {split : Split} (hs : Splits split) (m : Model) (area : Rect) (hw : 0 ≤ area.width)
    (hh : m.height = area.height + 1) (h5 : 5 ≤ m.height) (ha : 0 ≤ m.activePanel ∧ m.activePanel ≤ 4) :
    split (sidebarLayout m) area = (List.range 5).map fun i =>
      (⟨area.x, area.y + ((sideHeights m.activePanel m.height).take i).sum, area.width,
        (sideHeights m.activePanel m.height)[i]?.getD 0⟩ : Rect) := by
  by_cases h30 : 30 < m.height
  · refine sidebar_of hs m area hw (by omega) _ (sidebar_tall m h30) _ rfl (by unfold sideHeights; rw [if_pos h30]; rfl) ?_ ?_ ?_ ?_
    · intro c hc
      simp only [List.mem_cons, List.not_mem_nil, or_false] at hc
      rcases hc with rfl | rfl | rfl | rfl | rfl
      · exact .inl ⟨3, rfl, by decide⟩
      · exact .inr ⟨1, rfl⟩
      · exact .inr ⟨1, rfl⟩
      · exact .inr ⟨1, rfl⟩
      · exact .inl ⟨3, rfl, by decide⟩
    · simp [lenOf]; omega
    · exact ⟨1, by simp⟩
    · intro i hi a ha
      unfold sideHeights
      rw [if_pos h30]
      have h2 : i = 0 ∨ i = 1 ∨ i = 2 ∨ i = 3 ∨ i = 4 ∨ i = 5 := by omega
      rcases h2 with rfl | rfl | rfl | rfl | rfl | rfl
      · exact whole_bound (by simp [idealStart]) ha
      · exact whole_bound (by simp [idealStart, idealSize, lenOf]) ha
      · have := third_bound (c := area.height - 6 + 9) (by
          simp [idealStart, idealSize, lenOf, share_one, share_len]; ring) ha
        simp; omega
      · have := third_bound (c := 2 * (area.height - 6) + 9) (by
          simp [idealStart, idealSize, lenOf, share_one, share_len]; ring) ha
        simp; omega
      · have := whole_bound (b := area.height - 3) (by
          simp [idealStart, idealSize, lenOf, share_one, share_len]; ring) ha
        simp; omega
      · have := whole_bound (b := area.height) (by
          simp [idealStart, idealSize, lenOf, share_one, share_len]; ring) ha
        simp; omega
  · obtain ⟨p, hp, hpa⟩ : ∃ p : Nat, p < 5 ∧ m.activePanel = p := by
      have ha' : (0 : Int) ≤ m.activePanel ∧ @LE.le Int _ m.activePanel 4 := ha
      obtain ⟨p, hp⟩ := Int.eq_ofNat_of_zero_le ha'.1
      exact ⟨p, by rw [hp] at ha'; omega, hp⟩
    have hp' : p = 0 ∨ p = 1 ∨ p = 2 ∨ p = 3 ∨ p = 4 := by omega
    by_cases h22 : 22 < m.height
    · rw [sidebar_one hs m area hw 3 (by omega) (by omega) p hp (by
        unfold sidebarLayout statusConstraint filesConstraint branchesConstraint commitsConstraint stashConstraint heightMedium
          heightSmall panelStatus panelFiles panelBranches panelCommits panelStash
        rw [hpa]
        rcases hp' with rfl | rfl | rfl | rfl | rfl <;> simp [Layout.new, h30, h22])]
      unfold sideHeights
      rw [if_neg h30, if_pos h22, hpa, hh]
      rcases hp' with rfl | rfl | rfl | rfl | rfl <;> simp
    · rw [sidebar_one hs m area hw 1 (by omega) (by omega) p hp (by
        unfold sidebarLayout statusConstraint filesConstraint branchesConstraint commitsConstraint stashConstraint heightMedium
          heightSmall panelStatus panelFiles panelBranches panelCommits panelStash
        rw [hpa]
        rcases hp' with rfl | rfl | rfl | rfl | rfl <;> simp [Layout.new, h30, h22])]
      unfold sideHeights
      rw [if_neg h30, if_neg h22, hpa, hh]
      rcases hp' with rfl | rfl | rfl | rfl | rfl <;> simp

end Bento.Lazygit
