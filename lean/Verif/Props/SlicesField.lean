import Verif.Lemmas.Slices

/-!
# The input field edits its text in place

Property C76.
-/

namespace Bento

namespace Slices

open InputField (State)

theorem sub_spec {α : Type} {h : Heap α} {s t : Slice} {a b : Nat} (hs : Valid h s) (ht : s.sub a b = some t)
    (hb : b ≤ s.len) : Valid h t ∧ read h t = ((read h s).take b).drop a := by
  unfold Slice.sub at ht
  split at ht
  · rename_i hab
    cases ht
    obtain ⟨h1, h2⟩ := hs
    refine ⟨⟨by simp only; omega, by simp only; omega⟩, ?_⟩
    apply List.ext_getElem?
    intro k
    rw [read_getElem?, List.getElem?_drop, List.getElem?_take, read_getElem?]
    simp only
    by_cases hk : k < b - a
    · rw [if_pos hk, if_pos (by omega), if_pos (by omega), Nat.add_assoc]
    · rw [if_neg hk, if_neg (by omega)]
  · cases ht

theorem valid_nil {α : Type} (h : Heap α) : Valid h .nil := ⟨Nat.le_refl _, Nat.zero_le _⟩

theorem read_nil {α : Type} (h : Heap α) : read h .nil = [] := by
  simp [read, Slice.nil]

theorem overwrite_same {α : Type} {l : List α} {i : Nat} {x : α} (hx : l[i]? = some x) : overwrite l i [x] = l := by
  have hi := (List.getElem?_eq_some_iff.1 hx).1
  apply List.ext_getElem?
  intro k
  rw [overwrite_getElem? _ _ _ _ (by simp; omega)]
  by_cases h1 : k < i
  · rw [if_pos h1]
  · rw [if_neg h1]
    by_cases h2 : k < i + [x].length
    · rw [if_pos h2]
      simp only [List.length_singleton] at h2
      have : k = i := by omega
      subst this
      rw [hx]
      simp
    · rw [if_neg h2]

/-- Where the parts of `splitAtCursor` lie. -/
def Parts (h : Heap Grapheme) (b : Slice) (u : Grapheme) (a : Slice) : Prop :=
  (b = .nil) ∨ (b.len + 1 ≤ b.cap ∧ (h.array b.arr)[b.off + b.len]? = some u ∧ (a = .nil ∨ b.off + b.len + 1 ≤ a.off))

theorem splitAtCursor_spec {h : Heap Grapheme} {s : Slice} (hs : Valid h s) (c : Int) (sc : Bool) (o : Int) :
    match Field.splitAtCursor h s c with
    | none => State.splitAtCursor ⟨c, sc, read h s, o⟩ = none
    | some (b, u, a) => State.splitAtCursor ⟨c, sc, read h s, o⟩ = some (read h b, u, read h a) ∧ Valid h b ∧
        Valid h a ∧ Parts h b u a := by
  have hlen := read_length hs
  unfold Field.splitAtCursor State.splitAtCursor
  simp only [hlen]
  by_cases h0 : s.len = 0 ∨ c = 0
  · rw [if_pos h0, if_pos h0]
    exact ⟨by rw [read_nil], valid_nil h, hs, .inl rfl⟩
  · rw [if_neg h0, if_neg h0]
    by_cases h1 : c < 1
    · rw [if_pos h1, if_pos h1]
    · rw [if_neg h1, if_neg h1]
      cases hu : (read h s)[(c - 1).toNat]? with
      | none =>
        cases s.sub 0 (c - 1).toNat <;> simp
      | some u =>
        have hcl := (List.getElem?_eq_some_iff.1 hu).1
        rw [hlen] at hcl
        have hsub : s.sub 0 (c - 1).toNat = some ⟨s.arr, s.off + 0, (c - 1).toNat - 0, s.cap - 0⟩ := by
          unfold Slice.sub
          rw [if_pos ⟨Nat.zero_le _, by have := hs.1; omega⟩]
        obtain ⟨vb, rb⟩ := sub_spec hs hsub (by omega)
        rw [read_getElem?, if_pos hcl] at hu
        have hcap : (c - 1).toNat - 0 + 1 ≤ s.cap - 0 := by have := hs.1; omega
        simp only [hsub, Option.bind_eq_bind, Option.bind_some]
        by_cases hc : (s.len : Int) > c
        · rw [if_pos hc]
          have hsub2 : s.sub c.toNat s.len = some ⟨s.arr, s.off + c.toNat, s.len - c.toNat, s.cap - c.toNat⟩ := by
            unfold Slice.sub
            rw [if_pos ⟨by omega, hs.1⟩]
          obtain ⟨va, ra⟩ := sub_spec hs hsub2 (Nat.le_refl _)
          simp only [hsub2, Option.bind_some]
          refine ⟨?_, vb, va, .inr ⟨hcap, ?_, .inr ?_⟩⟩
          · rw [rb, ra, List.drop_zero, List.take_of_length_le (by omega : (read h s).length ≤ s.len)]
          · simpa using hu
          · simp only; omega
        · rw [if_neg hc]
          refine ⟨?_, vb, valid_nil h, .inr ⟨hcap, ?_, .inl rfl⟩⟩
          · rw [rb, read_nil, List.drop_zero, List.drop_of_length_le (by omega)]
          · simpa using hu

theorem whileLoop_spec (cond : Grapheme → Bool) (h : Heap Grapheme) (b : Slice) (len : Int) :
    ∀ (n : Nat) (cur : Grapheme) (c : Int), n ≤ (read h b).length →
    ∃ n' cur' c', Field.whileLoop cond h b len n cur c = some (n', cur', c') ∧ n' ≤ n ∧
      State.whileLoop cond len ((read h b).take n).reverse cur c = (((read h b).take n').reverse, cur', c') := by
  intro n
  induction n with
  | zero =>
    intro cur c _
    exact ⟨0, _, _, rfl, Nat.le_refl _, by simp [State.whileLoop]⟩
  | succ n ih =>
    intro cur c hn
    have hg : (read h b)[n]? = some (read h b)[n] := List.getElem?_eq_getElem (by omega)
    have ht : ((read h b).take (n + 1)).reverse = (read h b)[n] :: ((read h b).take n).reverse := by
      rw [List.take_add_one, hg]
      simp
    unfold Field.whileLoop
    rw [ht]
    simp only [State.whileLoop, hg]
    by_cases hc : cond cur
    · rw [if_pos hc, if_pos hc]
      obtain ⟨n', cur', c', h1, h2, h3⟩ := ih (read h b)[n] (min (max 0 (c - 1)) len) (by omega)
      exact ⟨n', cur', c', h1, by omega, h3⟩
    · rw [if_neg hc, if_neg hc]
      exact ⟨n + 1, cur, c, rfl, Nat.le_refl _, by rw [ht]⟩

/-- An edit of a field does to its text what it does to the text as a value. -/
def Refines (r : Option Field) (v : Option State) : Prop :=
  match r with
  | none => v = none
  | some f' => v = some f'.state ∧ Valid f'.heap f'.graphemes

theorem deleteWhile_spec (grow : Growth) (cond : Grapheme → Bool) (f : Field) (hf : Valid f.heap f.graphemes) :
    Refines (f.deleteWhile grow cond) (f.state.deleteWhile cond) := by
  have hsp := splitAtCursor_spec hf f.cursor f.showCursor f.offset
  unfold Field.deleteWhile State.deleteWhile
  cases hc : Field.splitAtCursor f.heap f.graphemes f.cursor with
  | none =>
    rw [hc] at hsp
    simp only at hsp
    have : f.state.splitAtCursor = none := hsp
    rw [this]
    exact rfl
  | some r =>
    obtain ⟨b, u, a⟩ := r
    rw [hc] at hsp
    simp only at hsp
    obtain ⟨h1, vb, va, hp⟩ := hsp
    have h1 : f.state.splitAtCursor = some (read f.heap b, u, read f.heap a) := h1
    rw [h1]
    obtain ⟨n, cur, c, h2, h3, h4⟩ := whileLoop_spec cond f.heap b f.graphemes.len b.len u f.cursor
      (by rw [read_length vb])
    rw [List.take_of_length_le (by rw [read_length vb])] at h4
    have hl : ((f.state.graphemes.length : Int)) = f.graphemes.len := by
      show (((read f.heap f.graphemes).length : Nat) : Int) = _
      rw [read_length hf]
    have hcu : f.state.cursor = f.cursor := rfl
    have hsub : b.sub 0 n = some ⟨b.arr, b.off + 0, n - 0, b.cap - 0⟩ := by
      unfold Slice.sub
      rw [if_pos ⟨Nat.zero_le _, by have := vb.1; omega⟩]
    obtain ⟨vb', rb'⟩ := sub_spec vb hsub h3
    simp only [Option.bind_eq_bind, Option.bind_some, h2, hsub]
    have v1 : Valid (Field.app grow f.heap ⟨b.arr, b.off + 0, n - 0, b.cap - 0⟩ [cur]).1
        (Field.app grow f.heap ⟨b.arr, b.off + 0, n - 0, b.cap - 0⟩ [cur]).2 := valid_append _ _ vb' _
    have r1 : read (Field.app grow f.heap ⟨b.arr, b.off + 0, n - 0, b.cap - 0⟩ [cur]).1
        (Field.app grow f.heap ⟨b.arr, b.off + 0, n - 0, b.cap - 0⟩ [cur]).2 = (read f.heap b).take n ++ [cur] := by
      rw [Field.app, read_append _ _ vb', rb', List.drop_zero]
    have ra : read (Field.app grow f.heap ⟨b.arr, b.off + 0, n - 0, b.cap - 0⟩ [cur]).1 a = read f.heap a := by
      refine read_append_other _ _ vb' _ va ?_
      intro hr
      rcases hp with hp | ⟨_, _, hp | hp⟩
      · subst hp
        simp [Slice.nil] at hr
      · subst hp
        exact .inr (.inl (Nat.zero_le _))
      · refine .inr (.inr ?_)
        simp only [List.length_singleton]
        omega
    refine ⟨?_, valid_append _ _ v1 _⟩
    simp only [Option.some.injEq, State.mk.injEq, Field.state]
    rw [← hcu] at h4
    have h4' : State.whileLoop cond (f.state.graphemes.length : Int) (read f.heap b).reverse u f.state.cursor =
        (((read f.heap b).take n).reverse, cur, c) := by rw [hl]; exact h4
    refine ⟨?_, trivial, ?_, trivial⟩
    · have := congrArg (·.2.2) h4'
      exact this
    · have e1 := congrArg (·.1) h4'
      have e2 := congrArg (·.2.1) h4'
      simp only at e1 e2
      have : read (Field.app grow (Field.app grow f.heap ⟨b.arr, b.off + 0, n - 0, b.cap - 0⟩ [cur]).1
          (Field.app grow f.heap ⟨b.arr, b.off + 0, n - 0, b.cap - 0⟩ [cur]).2
          (read (Field.app grow f.heap ⟨b.arr, b.off + 0, n - 0, b.cap - 0⟩ [cur]).1 a)).1
          (Field.app grow (Field.app grow f.heap ⟨b.arr, b.off + 0, n - 0, b.cap - 0⟩ [cur]).1
          (Field.app grow f.heap ⟨b.arr, b.off + 0, n - 0, b.cap - 0⟩ [cur]).2
          (read (Field.app grow f.heap ⟨b.arr, b.off + 0, n - 0, b.cap - 0⟩ [cur]).1 a)).2 =
          (read f.heap b).take n ++ [cur] ++ read f.heap a := by
        rw [Field.app, read_append _ _ v1, r1, ra]
      rw [this]
      simp only [Field.state] at e1 e2
      rw [e1, e2, List.reverse_reverse]
      simp

theorem setCursor_spec (f : Field) (hf : Valid f.heap f.graphemes) (c : Int) :
    (f.setCursor c).state = f.state.setCursor c ∧ Valid (f.setCursor c).heap (f.setCursor c).graphemes := by
  refine ⟨?_, hf⟩
  simp only [Field.state, Field.setCursor, State.setCursor, State.clampCursor, read_length hf]

theorem deleteUnderCursor_spec (grow : Growth) (f : Field) (hf : Valid f.heap f.graphemes) :
    Refines (f.deleteUnderCursor grow) f.state.deleteUnderCursor := by
  have hsp := splitAtCursor_spec hf f.cursor f.showCursor f.offset
  unfold Field.deleteUnderCursor State.deleteUnderCursor
  cases hc : Field.splitAtCursor f.heap f.graphemes f.cursor with
  | none =>
    rw [hc] at hsp
    simp only at hsp
    have : f.state.splitAtCursor = none := hsp
    rw [this]
    exact rfl
  | some r =>
    obtain ⟨b, u, a⟩ := r
    rw [hc] at hsp
    simp only at hsp
    obtain ⟨h1, vb, va, hp⟩ := hsp
    have h1 : f.state.splitAtCursor = some (read f.heap b, u, read f.heap a) := h1
    rw [h1]
    simp only [Option.bind_eq_bind, Option.bind_some]
    have v : Valid (Field.app grow f.heap b (read f.heap a)).1 (Field.app grow f.heap b (read f.heap a)).2 :=
      valid_append _ _ vb _
    have hr : read (Field.app grow f.heap b (read f.heap a)).1 (Field.app grow f.heap b (read f.heap a)).2 =
        read f.heap b ++ read f.heap a := read_append _ _ vb _
    obtain ⟨k1, k2⟩ := setCursor_spec { f with heap := (Field.app grow f.heap b (read f.heap a)).1, graphemes :=
      (Field.app grow f.heap b (read f.heap a)).2 } v (f.cursor - 1)
    refine ⟨?_, k2⟩
    rw [Option.some.injEq]
    refine Eq.trans ?_ k1.symm
    simp only [Field.state, hr]
    rfl

theorem insert_spec (grow : Growth) (f : Field) (hf : Valid f.heap f.graphemes) (g : Grapheme) :
    Refines (f.insert grow g) (f.state.insert g) := by
  have hl := read_length hf
  unfold Field.insert State.insert
  simp only [Field.state, hl]
  by_cases hc : 0 ≤ f.cursor ∧ f.cursor ≤ f.graphemes.len
  · rw [if_pos hc, if_pos hc]
    have hgl : ((read f.heap f.graphemes).take f.cursor.toNat ++
        g :: (read f.heap f.graphemes).drop f.cursor.toNat).length = f.graphemes.len + 1 := by
      simp only [List.length_append, List.length_cons, List.length_take, List.length_drop, hl]
      omega
    by_cases hr : f.graphemes.len + 1 ≤ f.graphemes.cap
    · rw [if_pos hr]
      have hroom : f.graphemes.off + ((read f.heap f.graphemes).take f.cursor.toNat ++
          g :: (read f.heap f.graphemes).drop f.cursor.toNat).length ≤ (f.heap.array f.graphemes.arr).length := by
        rw [hgl]
        have := hf.2
        omega
      refine ⟨?_, ?_⟩
      · simp only [Option.some.injEq, Field.state, State.mk.injEq, true_and, and_true]
        apply List.ext_getElem?
        intro k
        rw [read_set hroom]
        simp only
        by_cases hk : k < f.graphemes.len + 1
        · rw [if_pos hk, if_pos ⟨trivial, by omega, by rw [hgl]; omega⟩]
          congr 1
          omega
        · rw [if_neg hk, List.getElem?_eq_none (by rw [hgl]; omega)]
      · show Valid _ _
        rw [valid_set hroom]
        exact ⟨hr, hf.2⟩
    · rw [if_neg hr]
      refine ⟨?_, valid_alloc_new _ _ _ _⟩
      simp only [Field.state, read_alloc_new]
  · rw [if_neg hc, if_neg hc]
    exact rfl

theorem appendLoop_spec (u : Uniseg) (grow : Growth) : ∀ (cs : List String) (f : Field),
    Valid f.heap f.graphemes → Refines (Field.appendLoop u grow cs f) (State.appendLoop u cs f.state) := by
  intro cs
  induction cs with
  | nil =>
    intro f hf
    exact ⟨rfl, hf⟩
  | cons c cs ih =>
    intro f hf
    have h := insert_spec grow f hf (Grapheme.new u c)
    unfold Field.appendLoop State.appendLoop
    cases hi : f.insert grow (Grapheme.new u c) with
    | none =>
      rw [hi] at h
      have h : f.state.insert (Grapheme.new u c) = none := h
      rw [h]
      exact rfl
    | some f' =>
      rw [hi] at h
      obtain ⟨h1, h2⟩ := h
      rw [h1]
      simp only [Option.bind_eq_bind, Option.bind_some]
      obtain ⟨k1, k2⟩ := setCursor_spec f' h2 (f'.cursor + 1)
      have := ih _ k2
      rw [k1] at this
      exact this

theorem underCursor_spec (f : Field) (hf : Valid f.heap f.graphemes) : f.underCursor = f.state.underCursor := by
  unfold Field.underCursor State.underCursor
  simp only [Field.state, read_length hf]
  rfl

theorem deleteWord_spec (grow : Growth) (f : Field) (hf : Valid f.heap f.graphemes) :
    Refines (f.deleteWordUnderCursor grow) f.state.deleteWordUnderCursor := by
  unfold Field.deleteWordUnderCursor State.deleteWordUnderCursor
  rw [underCursor_spec f hf]
  cases f.state.underCursor with
  | none => exact rfl
  | some cur =>
    simp only [Option.bind_eq_bind, Option.bind_some]
    by_cases he : cur.isEmpty
    · rw [if_pos he, if_pos he]
      exact ⟨rfl, hf⟩
    · rw [if_neg he, if_neg he]
      by_cases hw : cur.isWhitespace
      · rw [if_pos hw, if_pos hw]
        have h := deleteWhile_spec grow Grapheme.isWhitespace f hf
        cases hd : f.deleteWhile grow Grapheme.isWhitespace with
        | none =>
          rw [hd] at h
          have h : f.state.deleteWhile Grapheme.isWhitespace = none := h
          rw [h]
          exact rfl
        | some f' =>
          rw [hd] at h
          obtain ⟨h1, h2⟩ := h
          rw [h1]
          exact deleteWhile_spec grow _ f' h2
      · rw [if_neg hw, if_neg hw]
        exact deleteWhile_spec grow _ f hf

end Slices

open Slices in
/-- Every key does to the text of an input field, which is edited in place, what it does to a text that is a value
(properties C37–C39); panics included. The arrays may have any room. -/
theorem C76_update (u : Uniseg) (grow : Growth) (key : Key) (f : Field) (hf : Valid f.heap f.graphemes) :
    match f.update u grow key with
    | none => f.state.update u key = none
    | some (f', handled) => f.state.update u key = some (f'.state, handled) ∧ Valid f'.heap f'.graphemes := by
  have lift : ∀ {r : Option Field} {v : Option InputField.State}, Refines r v →
      match r.map (·, true) with
      | none => v.map (·, true) = none
      | some (f', handled) => v.map (·, true) = some (f'.state, handled) ∧ Valid f'.heap f'.graphemes := by
    intro r v h
    cases r with
    | none => rw [show v = none from h]; rfl
    | some f' => exact ⟨by rw [h.1]; rfl, h.2⟩
  have move : ∀ c, some ((f.setCursor c).state, true) = some (f.state.setCursor c, true) := by
    intro c
    rw [(setCursor_spec f hf c).1]
  have hl : ((f.state.graphemes.length : Int)) = f.graphemes.len := by
    show (((read f.heap f.graphemes).length : Nat) : Int) = _
    rw [read_length hf]
  unfold Field.update InputField.State.update
  by_cases h1 : key.type = Input.keyLeft
  · simp only [if_pos h1]
    exact ⟨(move _).symm, hf⟩
  simp only [if_neg h1]
  by_cases h2 : key.type = Input.keyShiftLeft
  · simp only [if_pos h2]
    exact ⟨trivial, hf⟩
  simp only [if_neg h2]
  by_cases h3 : key.type = Input.keyRight
  · simp only [if_pos h3]
    exact ⟨(move _).symm, hf⟩
  simp only [if_neg h3]
  by_cases h4 : key.type = Input.keyShiftRight
  · simp only [if_pos h4]
    exact ⟨trivial, hf⟩
  simp only [if_neg h4]
  by_cases h5 : key.type = 127 ∨ key.type = Input.keyDelete
  · simp only [if_pos h5]
    exact lift (deleteUnderCursor_spec grow f hf)
  simp only [if_neg h5]
  by_cases h6 : key.type = 1
  · simp only [if_pos h6]
    refine ⟨?_, hf⟩
    have := (setCursor_spec f hf 0).1
    simp only [InputField.State.moveCursorBegin]
    rw [← this]
    rfl
  simp only [if_neg h6]
  by_cases h7 : key.type = 5
  · simp only [if_pos h7]
    refine ⟨?_, hf⟩
    simp only [InputField.State.moveCursorEnd, hl]
    exact (move _).symm
  simp only [if_neg h7]
  by_cases h8 : key.type = 23
  · simp only [if_pos h8]
    exact lift (deleteWord_spec grow f hf)
  simp only [if_neg h8]
  by_cases h9 : key.type = Input.keyRunes ∨ key.type = Input.keySpace
  · simp only [if_pos h9]
    exact lift (appendLoop_spec u grow _ f hf)
  simp only [if_neg h9]
  exact ⟨trivial, hf⟩

open Slices in
/-- Drawing an input field cuts out the visible part and appends to a prefix of it; the text of the field, and of any
other slice of its arrays, stays as it is, and the parts are those of the text as a value. -/
theorem C76_draw (grow : Growth) (f : Field) (hf : Valid f.heap f.graphemes) (first count : Nat) :
    match f.split grow first count with
    | none => InputField.State.splitAtCursor ⟨f.cursor - first, false, (f.state.graphemes.drop first).take count,
        f.offset⟩ = none
    | some (h, before, after) => (∀ s, Valid f.heap s → read h s = read f.heap s) ∧
        ∃ b u, InputField.State.splitAtCursor ⟨f.cursor - first, false, (f.state.graphemes.drop first).take count,
          f.offset⟩ = some (b, u, after) ∧ before = b ++ [u] := by
  have hl := read_length hf
  have hvis : ∃ v, (if first ≥ f.graphemes.len then some Slice.nil else f.graphemes.sub first f.graphemes.len) = some v ∧
      Valid f.heap v ∧ read f.heap v = f.state.graphemes.drop first := by
    by_cases h1 : first ≥ f.graphemes.len
    · rw [if_pos h1]
      refine ⟨_, rfl, valid_nil _, ?_⟩
      rw [read_nil, List.drop_of_length_le]
      show (read f.heap f.graphemes).length ≤ first
      omega
    · rw [if_neg h1]
      have hsub : f.graphemes.sub first f.graphemes.len = some ⟨f.graphemes.arr, f.graphemes.off + first,
          f.graphemes.len - first, f.graphemes.cap - first⟩ := by
        unfold Slice.sub
        rw [if_pos ⟨by omega, hf.1⟩]
      obtain ⟨k1, k2⟩ := sub_spec hf hsub (Nat.le_refl _)
      refine ⟨_, hsub, k1, ?_⟩
      rw [k2, List.take_of_length_le (by omega)]
      rfl
  obtain ⟨v, hv, vv, rv⟩ := hvis
  have hsub : v.sub 0 (min count v.len) = some ⟨v.arr, v.off + 0, min count v.len - 0, v.cap - 0⟩ := by
    unfold Slice.sub
    rw [if_pos ⟨Nat.zero_le _, by have := vv.1; omega⟩]
  obtain ⟨k1, k2⟩ := sub_spec vv hsub (by omega)
  have rv' : read f.heap ⟨v.arr, v.off + 0, min count v.len - 0, v.cap - 0⟩ =
      (f.state.graphemes.drop first).take count := by
    rw [k2, List.drop_zero, ← rv]
    have := read_length vv
    by_cases hc : count ≤ v.len
    · rw [Nat.min_eq_left hc]
    · rw [Nat.min_eq_right (by omega), List.take_of_length_le (by omega), List.take_of_length_le (by omega)]
  have hsp := splitAtCursor_spec k1 (f.cursor - first) false f.offset
  rw [rv'] at hsp
  have hdo : f.split grow first count = (Field.splitAtCursor f.heap ⟨v.arr, v.off + 0, min count v.len - 0, v.cap - 0⟩
      (f.cursor - first)).bind fun r => some ((Field.app grow f.heap r.1 [r.2.1]).1,
        read (Field.app grow f.heap r.1 [r.2.1]).1 (Field.app grow f.heap r.1 [r.2.1]).2,
        read (Field.app grow f.heap r.1 [r.2.1]).1 r.2.2) := by
    unfold Field.split
    by_cases h1 : first ≥ f.graphemes.len
    · rw [if_pos h1] at hv ⊢
      cases hv
      simp only [Option.bind_eq_bind, Option.bind_some, hsub]
    · rw [if_neg h1] at hv ⊢
      simp only [hv, Option.bind_eq_bind, Option.bind_some, hsub]
  rw [hdo]
  cases hc : Field.splitAtCursor f.heap ⟨v.arr, v.off + 0, min count v.len - 0, v.cap - 0⟩ (f.cursor - first) with
  | none =>
    rw [hc] at hsp
    exact hsp
  | some r =>
    obtain ⟨b, u, a⟩ := r
    rw [hc] at hsp
    simp only at hsp
    obtain ⟨h1, vb, va, hp⟩ := hsp
    simp only [Option.bind_some]
    have hold : ∀ s, Valid f.heap s → read (Field.app grow f.heap b [u]).1 s = read f.heap s := by
      intro s hs
      unfold Field.app append
      split
      · rename_i hr
        rcases hp with hp | ⟨_, hp, _⟩
        · subst hp
          simp [Slice.nil] at hr
        · simp only
          rw [overwrite_same hp]
          by_cases hb : b.arr < f.heap.length
          · have : f.heap.set b.arr (f.heap.array b.arr) = f.heap := by
              apply List.ext_getElem?
              intro k
              rw [List.getElem?_set]
              split
              · rename_i hk
                subst hk
                unfold Heap.array
                rw [List.getElem?_eq_getElem hb]
                rfl
              · rfl
            rw [this]
          · rw [List.set_eq_of_length_le (by omega)]
      · exact read_alloc_old _ _ _ _ hs
    refine ⟨hold, read f.heap b, u, ?_, ?_⟩
    · rw [h1, hold a va]
    · exact read_append _ _ vb _

open Slices in
/-- A field with the text "ab c" in an array with room for six, the cursor at the end: the word is deleted in the same
array (`ctrl+w` twice), whose end keeps old graphemes. -/
example : let g (s : String) : Grapheme := ⟨s, 1⟩
    let f : Field := ⟨[[g "a", g "b", g " ", g "c", Grapheme.empty, Grapheme.empty]], ⟨0, 0, 4, 6⟩, 4, true, 0⟩
    Valid f.heap f.graphemes ∧
    (f.deleteWordUnderCursor fun _ _ => 0).map (fun f => (f.state.graphemes.map (·.symbol), f.cursor, f.heap.length)) =
      some (["a", "b", " "], 3, 1) := by
  refine ⟨⟨by decide, by decide⟩, by decide +kernel⟩

end Bento
