import Verif.Signal.Slice

/-!
# C24: `SparseSignal.__setitem__`

Modelled for keys `[:, s10:s11]` that select all streams, with non-negative bounds and unit step;
assigning to some of the streams (merge step, lines 2277-2295) is not modelled.
-/

namespace Verif.Signal

variable {M : Nat}

/-- Right-hand side of an assignment: a scalar, or a sample matrix. -/
inductive Value (M : Nat) where
  | scalar (c : ℂ)
  | matrix (cols : List (Col M))

/-- Binary search for the first affected block, `signal_model.py` 2012-2020. -/
def startLoop (bs : List (Block M)) (s10 : Nat) (L R b : Nat) : Nat :=
  if h : L < R then
    let m := (R + L + 1) / 2
    if ((bs[m]?).map (·.offset)).getD 0 > s10 then startLoop bs s10 L (m - 1) m
    else startLoop bs s10 m R m
  else b
termination_by R - L
decreasing_by all_goals omega

/-- `signal_model.py` 2012-2022. -/
def findStart (bs : List (Block M)) (s10 : Nat) : Nat :=
  let b := startLoop bs s10 0 (bs.length - 1) 0
  if ((bs[b]?).map (·.offset)).getD 0 > s10 ∧ b ≠ 0 then b - 1 else b

/-- Binary search for the last affected block, `signal_model.py` 2025-2033. -/
def stopLoop (bs : List (Block M)) (s11 : Nat) (L R b : Nat) : Nat :=
  if h : L < R then
    let m := (R + L) / 2
    if ((bs[m]?).map (·.stop)).getD 0 < s11 then stopLoop bs s11 (m + 1) R m
    else stopLoop bs s11 L m m
  else b
termination_by R - L
decreasing_by all_goals omega

/-- `signal_model.py` 2025-2035. -/
def findStop (bs : List (Block M)) (s11 : Nat) : Nat :=
  let b := stopLoop bs s11 0 (bs.length - 1) (bs.length - 1)
  if ((bs[b]?).map (·.stop)).getD 0 < s11 ∧ bs.length - 1 > b then b + 1 else b

/-- Python's `xs[:k]` for any integer `k`. -/
def pyTake {α : Type} (xs : List α) (k : Int) : List α :=
  if 0 ≤ k then xs.take k.toNat else xs.take (xs.length + k).toNat

/-- Python's `xs[k:]` for any integer `k`. -/
def pyDrop {α : Type} (xs : List α) (k : Int) : List α :=
  if 0 ≤ k then xs.drop k.toNat else xs.drop (xs.length + k).toNat

/-- A block as a list of blocks, dropped if it holds no samples (`if b_l.size != 0`). -/
def asList (b : Block M) : List (Block M) := if M = 0 ∨ b.cols.length = 0 then [] else [b]

/-- Merging of neighbouring blocks `i - 1` and `i`, `signal_model.py` 2305-2311 and 2314-2320;
`IndexError` if either does not exist. -/
def mergeAt (l : List (Block M)) (i : Nat) : Except PyErr (List (Block M)) :=
  if i = 0 then .error .index
  else match l[i - 1]?, l[i]? with
    | some b1, some b2 =>
      if b1.stop = b2.offset then
        .ok ((l.set (i - 1) ⟨b1.offset, b1.cols ++ b2.cols⟩).eraseIdx i)
      else .ok l
    | _, _ => .error .index

/-- Conditional merging, `if len(...) != 0`, lines 2303 and 2312. -/
def mergeIf (c : Bool) (l : List (Block M)) (i : Nat) : Except PyErr (List (Block M)) :=
  if c then mergeAt l i else .ok l

/-- Insertion of `new` in place of `[s10, s11)`, `signal_model.py` 2229-2275 and 2299-2321. -/
def replaceRange (bs : List (Block M)) (s10 s11 : Nat) (new : List (Block M)) :
    Except PyErr (List (Block M)) := do
  let i := findStart bs s10
  let j := findStop bs s11
  let first := (bs[i]?).getD ⟨0, []⟩
  let cut : Int := max ((s10 : Int) - first.offset) 0
  let beg := bs.take i ++ asList ⟨first.offset, pyTake first.cols cut⟩
  let last := (bs[j]?).getD ⟨0, []⟩
  let cut : Int := (s11 : Int) - last.offset
  let right : Block M := ⟨(last.offset + cut).toNat, pyDrop last.cols cut⟩
  let end' := (if i ≠ j then asList right else []) ++ bs.drop (j + 1)
  let r := beg ++ new ++ end'
  let r ← mergeIf (beg.length ≠ 0) r beg.length
  mergeIf (end'.length ≠ 0) r (r.length - end'.length)

open Classical in
/-- `SparseSignal.__setitem__` for the key `[:, s10:s11]`, `signal_model.py` 2165-2321. -/
noncomputable def setItem (bs : List (Block M)) (s10 s11 : Nat) (v : Value M) :
    Except PyErr (List (Block M)) :=
  let n := min (numSamples bs) (s11 - s10)
  let s11 := min (numSamples bs) s11
  match bs with
  | [] => .error .index
  | b0 :: _ =>
    if s11 < b0.offset then
      match v with
      | .scalar c => if c = 0 then .ok bs else .ok (⟨s10, List.replicate n (fun _ => c)⟩ :: bs)
      | .matrix cols =>
        if cols.length ≠ n then .error .value else .ok (fromDense cols 0 ++ bs)
    else if M = 0 then .ok bs
    else
      match v with
      | .scalar c =>
        replaceRange bs s10 s11 (if c = 0 then [] else [⟨s10, List.replicate n (fun _ => c)⟩])
      | .matrix cols =>
        let new := fromDense cols s10
        match new.head?, new.getLast? with
        | some f, some l =>
          if l.stop - f.offset > n then .error .value else replaceRange bs s10 s11 new
        | _, _ => .ok bs

/-! ### Binary searches -/

theorem startLoop_spec (bs : List (Block M)) (hs : WF bs) (s10 : Nat) (L R b : Nat)
    (hLR : L ≤ R) (hR : R < bs.length)
    (hL : L = 0 ∨ ∀ x, bs[L]? = some x → x.offset ≤ s10)
    (hG : ∀ i x, R < i → bs[i]? = some x → s10 < x.offset)
    (hb : L = R → b = L ∨ b = L + 1 ∧ b < bs.length) :
    ∃ l, (startLoop bs s10 L R b = l ∨ startLoop bs s10 L R b = l + 1 ∧ l + 1 < bs.length) ∧
      l < bs.length ∧ (l = 0 ∨ ∀ x, bs[l]? = some x → x.offset ≤ s10) ∧
      ∀ i x, l < i → bs[i]? = some x → s10 < x.offset := by
  induction hk : R - L using Nat.strong_induction_on generalizing L R b with
  | _ k ih =>
    rw [startLoop]
    by_cases h : L < R
    · rw [dif_pos h]
      dsimp only
      have hm : (R + L + 1) / 2 < bs.length := by omega
      rw [List.getElem?_eq_getElem hm]
      simp only [Option.map_some, Option.getD_some]
      split
      · next hgt =>
        refine ih ((R + L + 1) / 2 - 1 - L) (by omega) L _ _ (by omega) (by omega) hL ?_ ?_ rfl
        · intro i x hi hx
          by_cases hi' : i = (R + L + 1) / 2
          · subst hi'
            rw [List.getElem?_eq_getElem hm] at hx
            obtain rfl := Option.some.inj hx
            exact hgt
          · have hil := (List.getElem?_eq_some_iff.mp hx)
            obtain ⟨hlt, rfl⟩ := hil
            have := List.pairwise_iff_getElem.mp hs _ _ hm hlt (by omega)
            have h2 : bs[(R + L + 1) / 2].offset ≤ bs[(R + L + 1) / 2].stop := Nat.le_add_right _ _
            omega
        · intro he; right; omega
      · next hle =>
        refine ih (R - (R + L + 1) / 2) (by omega) _ R _ (by omega) hR ?_ hG ?_ rfl
        · right
          intro x hx
          rw [List.getElem?_eq_getElem hm] at hx
          obtain rfl := Option.some.inj hx
          omega
        · intro _; left; rfl
    · rw [dif_neg h]
      have he : L = R := by omega
      refine ⟨L, ?_, by omega, hL, ?_⟩
      · rcases hb he with h1 | ⟨h1, h2⟩
        · left; exact h1
        · right; exact ⟨h1, by omega⟩
      · rw [he]; exact hG

/-- The first affected block is the last one that starts at or before `s10`, or else the first. -/
theorem findStart_spec (bs : List (Block M)) (hs : WF bs) (hne : bs ≠ []) (s10 : Nat) :
    findStart bs s10 < bs.length ∧
    (findStart bs s10 = 0 ∨ ∀ x, bs[findStart bs s10]? = some x → x.offset ≤ s10) ∧
      ∀ i x, findStart bs s10 < i → bs[i]? = some x → s10 < x.offset := by
  have hpos : 0 < bs.length := List.length_pos_iff.mpr hne
  obtain ⟨l, h1, h2, h3, h4⟩ := startLoop_spec bs hs s10 0 (bs.length - 1) 0 (by omega) (by omega)
    (Or.inl rfl) (by
      intro i x hi hx
      have := (List.getElem?_eq_some_iff.mp hx).1
      omega) (fun h => Or.inl rfl)
  have : findStart bs s10 = l := by
    unfold findStart
    dsimp only
    rcases h1 with h1 | ⟨h1, h1'⟩
    · rw [h1, List.getElem?_eq_getElem h2, if_neg]
      simp only [Option.map_some, Option.getD_some]
      rintro ⟨h5, h6⟩
      rcases h3 with h3 | h3
      · exact h6 h3
      · have := h3 _ (List.getElem?_eq_getElem h2)
        omega
    · rw [h1, List.getElem?_eq_getElem h1', if_pos]
      · rfl
      · simp only [Option.map_some, Option.getD_some]
        exact ⟨h4 _ _ (Nat.lt_succ_self l) (List.getElem?_eq_getElem h1'), by omega⟩
  rw [this]
  exact ⟨h2, h3, h4⟩

theorem stopLoop_spec (bs : List (Block M)) (hs : WF bs) (s11 : Nat) (L R b : Nat)
    (hLR : L ≤ R) (hR : R < bs.length)
    (hr : R = bs.length - 1 ∨ ∀ x, bs[R]? = some x → s11 ≤ x.stop)
    (hG : ∀ i x, i < L → bs[i]? = some x → x.stop < s11)
    (hb : L = R → b = L ∨ b + 1 = L) :
    ∃ l, (stopLoop bs s11 L R b = l ∨ stopLoop bs s11 L R b + 1 = l) ∧
      l < bs.length ∧ (l = bs.length - 1 ∨ ∀ x, bs[l]? = some x → s11 ≤ x.stop) ∧
      ∀ i x, i < l → bs[i]? = some x → x.stop < s11 := by
  induction hk : R - L using Nat.strong_induction_on generalizing L R b with
  | _ k ih =>
    rw [stopLoop]
    by_cases h : L < R
    · rw [dif_pos h]
      dsimp only
      have hm : (R + L) / 2 < bs.length := by omega
      rw [List.getElem?_eq_getElem hm]
      simp only [Option.map_some, Option.getD_some]
      split
      · next hgt =>
        refine ih (R - ((R + L) / 2 + 1)) (by omega) _ R _ (by omega) hR hr ?_ ?_ rfl
        · intro i x hi hx
          by_cases hi' : i = (R + L) / 2
          · subst hi'
            rw [List.getElem?_eq_getElem hm] at hx
            obtain rfl := Option.some.inj hx
            exact hgt
          · obtain ⟨hlt, rfl⟩ := List.getElem?_eq_some_iff.mp hx
            have := List.pairwise_iff_getElem.mp hs _ _ hlt hm (by omega)
            have h2 : bs[(R + L) / 2].offset ≤ bs[(R + L) / 2].stop := Nat.le_add_right _ _
            omega
        · intro he; right; omega
      · next hle =>
        refine ih ((R + L) / 2 - L) (by omega) L _ _ (by omega) hm ?_ hG ?_ rfl
        · right
          intro x hx
          rw [List.getElem?_eq_getElem hm] at hx
          obtain rfl := Option.some.inj hx
          omega
        · intro he; left; omega
    · rw [dif_neg h]
      have he : L = R := by omega
      refine ⟨L, ?_, by omega, by rw [he]; exact hr, hG⟩
      rcases hb he with h1 | h1
      · left; exact h1
      · right; exact h1

/-- The last affected block is the first one that ends at or after `s11`, or else the last. -/
theorem findStop_spec (bs : List (Block M)) (hs : WF bs) (hne : bs ≠ []) (s11 : Nat) :
    findStop bs s11 < bs.length ∧
    (findStop bs s11 = bs.length - 1 ∨ ∀ x, bs[findStop bs s11]? = some x → s11 ≤ x.stop) ∧
      ∀ i x, i < findStop bs s11 → bs[i]? = some x → x.stop < s11 := by
  have hpos : 0 < bs.length := List.length_pos_iff.mpr hne
  obtain ⟨l, h1, h2, h3, h4⟩ := stopLoop_spec bs hs s11 0 (bs.length - 1) (bs.length - 1) (by omega)
    (by omega) (Or.inl rfl) (by omega) (fun h => by omega)
  have : findStop bs s11 = l := by
    unfold findStop
    dsimp only
    rcases h1 with h1 | h1
    · rw [h1, List.getElem?_eq_getElem h2, if_neg]
      simp only [Option.map_some, Option.getD_some]
      rintro ⟨h5, h6⟩
      rcases h3 with h3 | h3
      · omega
      · have := h3 _ (List.getElem?_eq_getElem h2)
        omega
    · have hlt : stopLoop bs s11 0 (bs.length - 1) (bs.length - 1) < bs.length := by omega
      rw [List.getElem?_eq_getElem hlt, if_pos]
      · exact h1
      · simp only [Option.map_some, Option.getD_some]
        exact ⟨h4 _ _ (by omega) (List.getElem?_eq_getElem hlt), by omega⟩
  rw [this]
  exact ⟨h2, h3, h4⟩

/-! ### Joining -/

theorem sumAt_append (a b : List (Block M)) (t : Nat) :
    sumAt (a ++ b) t = sumAt a t + sumAt b t := by simp [sumAt]

theorem sumAt_cons (b : Block M) (bs : List (Block M)) (t : Nat) :
    sumAt (b :: bs) t = b.at t + sumAt bs t := by simp [sumAt]

theorem at_append (b1 b2 : Block M) (h : b1.stop = b2.offset) (t : Nat) :
    Block.at ⟨b1.offset, b1.cols ++ b2.cols⟩ t = b1.at t + b2.at t := by
  have hst : b1.stop = b1.offset + b1.cols.length := rfl
  by_cases h1 : t < b1.stop
  · rw [b2.at_eq_zero t (by omega), add_zero]
    unfold Block.at
    dsimp only
    split
    · rw [List.getElem?_append_left (by omega)]
    · rfl
  · rw [b1.at_eq_zero t (by omega), zero_add]
    unfold Block.at
    dsimp only
    rw [if_pos (by omega), if_pos (by omega), List.getElem?_append_right (by omega)]
    congr 2; omega

/-- Merging at the seam of two block lists. -/
theorem mergeAt_spec (P : List (Block M)) (b1 b2 : Block M) (Q : List (Block M)) :
    mergeAt (P ++ b1 :: b2 :: Q) (P.length + 1) =
      .ok (if b1.stop = b2.offset then P ++ ⟨b1.offset, b1.cols ++ b2.cols⟩ :: Q
        else P ++ b1 :: b2 :: Q) := by
  unfold mergeAt
  rw [if_neg (by omega)]
  have h1 : (P ++ b1 :: b2 :: Q)[P.length + 1 - 1]? = some b1 := by simp
  have h2 : (P ++ b1 :: b2 :: Q)[P.length + 1]? = some b2 := by
    rw [List.getElem?_append_right (by omega)]; simp
  rw [h1, h2]
  dsimp only
  split
  · congr 1
    rw [Nat.add_sub_cancel, List.set_append_right _ _ (le_refl _), Nat.sub_self,
      List.set_cons_zero, List.eraseIdx_append_of_length_le (by omega)]
    simp
  · rfl

/-- Relation between neighbouring blocks. -/
def Apart (a b : Block M) : Prop := a.stop < b.offset

instance : IsTrans (Block M) Apart :=
  ⟨fun a b c h1 h2 => by unfold Apart Block.stop at *; omega⟩

instance : Trans (Apart (M := M)) Apart Apart :=
  ⟨fun {a b c} h1 h2 => by unfold Apart Block.stop at *; omega⟩

theorem separated_append (A B : List (Block M)) (hA : Separated A) (hB : Separated B)
    (h : ∀ a ∈ A, ∀ b ∈ B, a.stop < b.offset) : Separated (A ++ B) := by
  refine ⟨List.pairwise_append.mpr ⟨hA.1, hB.1, h⟩, ?_⟩
  intro b hb
  rcases List.mem_append.mp hb with hb | hb
  · exact hA.2 b hb
  · exact hB.2 b hb

/-- Joining two separated lists, the first of which ends no later than the second starts. -/
theorem join_spec (A B E : List (Block M)) (hA : Separated A) (hB : Separated B) (hA0 : A ≠ [])
    (hB0 : B ≠ []) (h : ∀ a ∈ A, ∀ b ∈ B, a.stop ≤ b.offset) :
    ∃ J, mergeAt (A ++ B ++ E) A.length = .ok (J ++ E) ∧ Separated J ∧ J ≠ [] ∧
      (∀ t, sumAt J t = sumAt A t + sumAt B t) ∧
      (∀ j ∈ J, (∃ a ∈ A, j.offset = a.offset) ∨ ∃ b ∈ B, j.offset = b.offset) ∧
      (∀ j ∈ J, (∃ a ∈ A, j.stop = a.stop) ∨ ∃ b ∈ B, j.stop = b.stop) := by
  obtain ⟨P, b1, rfl⟩ : ∃ P b1, A = P ++ [b1] := ⟨A.dropLast, A.getLast hA0,
    (List.dropLast_append_getLast hA0).symm⟩
  obtain ⟨b2, Q, rfl⟩ := List.exists_cons_of_ne_nil hB0
  have hl : P ++ [b1] ++ b2 :: Q ++ E = P ++ b1 :: b2 :: (Q ++ E) := by simp
  rw [hl, show (P ++ [b1]).length = P.length + 1 by simp, mergeAt_spec]
  have hpA := List.pairwise_append.mp hA.1
  have hpB := List.pairwise_cons.mp hB.1
  have h12 := h b1 (by simp) b2 (by simp)
  have hb1 := hA.2 b1 (by simp)
  have hb2 := hB.2 b2 (by simp)
  have hl1 : 0 < b1.cols.length := List.length_pos_iff.mpr hb1
  have hl2 : 0 < b2.cols.length := List.length_pos_iff.mpr hb2
  by_cases ht : b1.stop = b2.offset
  · refine ⟨P ++ ⟨b1.offset, b1.cols ++ b2.cols⟩ :: Q, by rw [if_pos ht]; simp, ?_, by simp, ?_, ?_, ?_⟩
    · refine ⟨List.pairwise_append.mpr ⟨hpA.1, List.pairwise_cons.mpr ⟨?_, hpB.2⟩, ?_⟩, ?_⟩
      · intro q hq
        have := hpB.1 q hq
        simp only [Block.stop, List.length_append] at *; omega
      · intro p hp q hq
        have h1 := hpA.2.2 p hp b1 (by simp)
        rcases List.mem_cons.mp hq with rfl | hq
        · exact h1
        · have := h p (by simp [hp]) q (by simp [hq])
          have h3 := hpB.1 q hq
          simp only [Block.stop] at *; omega
      · intro b hb
        rcases List.mem_append.mp hb with hb | hb
        · exact hA.2 b (by simp [hb])
        · rcases List.mem_cons.mp hb with rfl | hb
          · simp [hb1]
          · exact hB.2 b (by simp [hb])
    · intro t
      simp only [sumAt_append, sumAt_cons, at_append b1 b2 ht]
      simp [sumAt]
      abel
    · intro j hj
      rcases List.mem_append.mp hj with hj | hj
      · left; exact ⟨j, by simp [hj], rfl⟩
      · rcases List.mem_cons.mp hj with rfl | hj
        · left; exact ⟨b1, by simp, rfl⟩
        · right; exact ⟨j, by simp [hj], rfl⟩
    · intro j hj
      rcases List.mem_append.mp hj with hj | hj
      · left; exact ⟨j, by simp [hj], rfl⟩
      · rcases List.mem_cons.mp hj with rfl | hj
        · right; exact ⟨b2, by simp, by simp only [Block.stop, List.length_append] at *; omega⟩
        · right; exact ⟨j, by simp [hj], rfl⟩
  · refine ⟨P ++ b1 :: b2 :: Q, by rw [if_neg ht]; simp, ?_, by simp, ?_, ?_, ?_⟩
    · have := separated_append (P ++ [b1]) (b2 :: Q) hA hB (by
        intro a ha b hb
        have hab : a.stop ≤ b1.stop := by
          rcases List.mem_append.mp ha with ha | ha
          · have := hpA.2.2 a ha b1 (by simp)
            simp only [Block.stop] at *; omega
          · simp at ha; rw [ha]
        have hbb : b2.offset ≤ b.offset := by
          rcases List.mem_cons.mp hb with rfl | hb
          · exact le_refl _
          · have := hpB.1 b hb
            simp only [Block.stop] at *; omega
        omega)
      simpa using this
    · intro t
      simp [sumAt]; abel
    · intro j hj
      have : j ∈ P ++ [b1] ∨ j ∈ b2 :: Q := by
        rw [← List.mem_append]; simpa using hj
      rcases this with hj | hj
      · left; exact ⟨j, hj, rfl⟩
      · right; exact ⟨j, hj, rfl⟩
    · intro j hj
      have : j ∈ P ++ [b1] ∨ j ∈ b2 :: Q := by
        rw [← List.mem_append]; simpa using hj
      rcases this with hj | hj
      · left; exact ⟨j, hj, rfl⟩
      · right; exact ⟨j, hj, rfl⟩

/-! ### Cutting -/

theorem mem_asList {b c : Block M} (h : c ∈ asList b) : c = b ∧ b.cols ≠ [] := by
  unfold asList at h
  split at h
  · simp at h
  · next hn =>
    push Not at hn
    exact ⟨by simpa using h, fun he => hn.2 (by simp [he])⟩

theorem sumAt_asList (b : Block M) (hM : 0 < M) (t : Nat) : sumAt (asList b) t = b.at t := by
  unfold asList
  split
  · next h =>
    rw [b.at_eq_zero t (by unfold Block.stop; omega)]; rfl
  · simp [sumAt]

theorem asList_separated (b : Block M) : Separated (asList b) := by
  unfold asList
  split
  · exact ⟨List.Pairwise.nil, by simp⟩
  · next h =>
    push Not at h
    exact ⟨List.pairwise_singleton _ _, fun c hc he => h.2 (by
      have : c = b := by simpa using hc
      rw [← this, he]; rfl)⟩

theorem split_at (bs : List (Block M)) (i : Nat) (b : Block M) (h : bs[i]? = some b) :
    bs = bs.take i ++ b :: bs.drop (i + 1) := by
  obtain ⟨hi, rfl⟩ := List.getElem?_eq_some_iff.mp h
  rw [← List.drop_eq_getElem_cons hi, List.take_append_drop]

theorem Separated.sublist {A B : List (Block M)} (h : Separated B) (hs : A.Sublist B) :
    Separated A :=
  ⟨h.1.sublist hs, fun b hb => h.2 b (hs.subset hb)⟩

/-- The part of a block list in front of `s10`. -/
theorem front_spec (bs : List (Block M)) (hs : Separated bs) (hM : 0 < M) (s10 i : Nat) (b : Block M)
    (hb : bs[i]? = some b) (h1 : i = 0 ∨ b.offset ≤ s10)
    (h2 : ∀ k x, i < k → bs[k]? = some x → s10 < x.offset) :
    let beg := bs.take i ++ asList ⟨b.offset, b.cols.take (s10 - b.offset)⟩
    Separated beg ∧ (∀ x ∈ beg, x.stop ≤ s10) ∧
      ∀ t, sumAt beg t = if t < s10 then sumAt bs t else 0 := by
  intro beg
  have hsplit := split_at bs i b hb
  have hp := List.pairwise_append.mp (hsplit ▸ hs.1 : (bs.take i ++ b :: bs.drop (i + 1)).Pairwise _)
  have hbefore : ∀ x ∈ bs.take i, x.stop ≤ s10 ∧ x.stop < b.offset := by
    intro x hx
    have hlt := hp.2.2 x hx b (by simp)
    refine ⟨?_, hlt⟩
    rcases h1 with rfl | h1
    · simp at hx
    · omega
  have hafter : ∀ x ∈ bs.drop (i + 1), s10 < x.offset := by
    intro x hx
    obtain ⟨k, hk⟩ := List.mem_iff_getElem?.mp hx
    rw [List.getElem?_drop] at hk
    exact h2 _ x (by omega) hk
  have hst : b.stop = b.offset + b.cols.length := rfl
  refine ⟨?_, ?_, ?_⟩
  · refine separated_append _ _ (hs.sublist (List.take_sublist _ _)) (asList_separated _) ?_
    intro x hx y hy
    obtain ⟨rfl, _⟩ := mem_asList hy
    exact (hbefore x hx).2
  · intro x hx
    rcases List.mem_append.mp hx with hx | hx
    · exact (hbefore x hx).1
    · obtain ⟨rfl, hne⟩ := mem_asList hx
      have := List.length_pos_iff.mpr hne
      simp only [Block.stop, List.length_take] at *
      omega
  · intro t
    rw [sumAt_append, sumAt_asList _ hM]
    split
    · next ht =>
      conv_rhs => rw [hsplit, sumAt_append, sumAt_cons]
      rw [sumAt_eq_zero (bs.drop (i + 1)) t (fun x hx => by
        have := hafter x hx; left; omega), add_zero]
      congr 1
      unfold Block.at
      dsimp only
      split
      · rw [List.getElem?_take_of_lt (by omega)]
      · rfl
    · next ht =>
      rw [sumAt_eq_zero (bs.take i) t (fun x hx => by
        have := hbefore x hx; right; omega), zero_add]
      apply Block.at_eq_zero
      simp only [Block.stop, List.length_take]
      omega

/-- The part of a block list from `s11` on. -/
theorem back_spec (bs : List (Block M)) (hs : Separated bs) (hM : 0 < M) (s11 j : Nat) (b : Block M)
    (hb : bs[j]? = some b) (h1 : s11 ≤ b.stop) (h3 : b.offset ≤ s11)
    (h2 : ∀ k x, k < j → bs[k]? = some x → x.stop < s11) :
    let end' := asList ⟨s11, b.cols.drop (s11 - b.offset)⟩ ++ bs.drop (j + 1)
    Separated end' ∧ (∀ x ∈ end', s11 ≤ x.offset) ∧
      ∀ t, sumAt end' t = if s11 ≤ t then sumAt bs t else 0 := by
  intro end'
  have hsplit := split_at bs j b hb
  have hp := List.pairwise_append.mp (hsplit ▸ hs.1 : (bs.take j ++ b :: bs.drop (j + 1)).Pairwise _)
  have hafter : ∀ x ∈ bs.drop (j + 1), b.stop < x.offset := (List.pairwise_cons.mp hp.2.1).1
  have hbefore : ∀ x ∈ bs.take j, x.stop < s11 := by
    intro x hx
    obtain ⟨k, hk⟩ := List.mem_iff_getElem?.mp hx
    rw [List.getElem?_take] at hk
    split at hk
    · exact h2 k x (by assumption) hk
    · simp at hk
  have hst : b.stop = b.offset + b.cols.length := rfl
  refine ⟨?_, ?_, ?_⟩
  · refine separated_append _ _ (asList_separated _) (hs.sublist (List.drop_sublist _ _)) ?_
    intro x hx y hy
    obtain ⟨rfl, _⟩ := mem_asList hx
    have := hafter y hy
    simp only [Block.stop, List.length_drop] at *
    omega
  · intro x hx
    rcases List.mem_append.mp hx with hx | hx
    · obtain ⟨rfl, _⟩ := mem_asList hx
      exact le_refl _
    · have := hafter x hx; omega
  · intro t
    rw [sumAt_append, sumAt_asList _ hM]
    split
    · next ht =>
      conv_rhs => rw [hsplit, sumAt_append, sumAt_cons]
      rw [sumAt_eq_zero (bs.take j) t (fun x hx => by
        have := hbefore x hx; right; omega), zero_add]
      congr 1
      unfold Block.at
      dsimp only
      rw [if_pos ht, if_pos (by omega), List.getElem?_drop]
      congr 2; omega
    · next ht =>
      rw [sumAt_eq_zero (bs.drop (j + 1)) t (fun x hx => by
        have := hafter x hx; left; omega), add_zero]
      apply Block.at_eq_zero
      left; dsimp only; omega

/-- Replacement of a range by new, non-empty content. -/
theorem replaceRange_spec (bs : List (Block M)) (hs : Separated bs) (hM : 0 < M) (s10 s11 : Nat)
    (hlt : s10 < s11) (hlast : s11 ≤ numSamples bs) (b : Block M)
    (hb : bs[findStop bs s11]? = some b) (hoff : b.offset ≤ s11)
    (hcond : findStart bs s10 ≠ findStop bs s11 ∨ s11 = b.stop)
    (new : List (Block M)) (hn : Separated new) (hn0 : new ≠ [])
    (hin : ∀ x ∈ new, s10 ≤ x.offset ∧ x.stop ≤ s11) :
    ∃ r, replaceRange bs s10 s11 new = .ok r ∧ Separated r ∧
      ∀ t, sumAt r t = if s10 ≤ t ∧ t < s11 then sumAt new t else sumAt bs t := by
  have hne : bs ≠ [] := by rintro rfl; simp at hb
  obtain ⟨hi, hi1, hi2⟩ := findStart_spec bs hs.wf hne s10
  obtain ⟨hj, hj1, hj2⟩ := findStop_spec bs hs.wf hne s11
  have hstop : s11 ≤ b.stop := by
    rcases hj1 with hj1 | hj1
    · unfold numSamples at hlast
      rw [List.getLast?_eq_getElem?, ← hj1, hb] at hlast
      exact hlast
    · exact hj1 b hb
  obtain ⟨f, hf⟩ : ∃ f, bs[findStart bs s10]? = some f := ⟨_, List.getElem?_eq_getElem hi⟩
  obtain ⟨g1, g2, g3⟩ := front_spec bs hs hM s10 _ f hf (hi1.imp_right fun h => h f hf) hi2
  obtain ⟨k1, k2, k3⟩ := back_spec bs hs hM s11 _ b hb hstop hoff hj2
  have hst : b.stop = b.offset + b.cols.length := rfl
  have hend : (if findStart bs s10 ≠ findStop bs s11 then
      asList (⟨((b.offset : Int) + (s11 - b.offset)).toNat, pyDrop b.cols ((s11 : Int) - b.offset)⟩ : Block M)
      else []) = asList ⟨s11, b.cols.drop (s11 - b.offset)⟩ := by
    have h1 : ((b.offset : Int) + (s11 - b.offset)).toNat = s11 := by omega
    have h2 : pyDrop b.cols ((s11 : Int) - b.offset) = b.cols.drop (s11 - b.offset) := by
      unfold pyDrop
      rw [if_pos (by omega)]; congr 1; omega
    rw [h1, h2]
    split
    · rfl
    · next h =>
      rcases hcond with h' | h'
      · exact absurd h' h
      · unfold asList
        rw [if_pos]
        right; simp; omega
  have hbeg : pyTake f.cols (max ((s10 : Int) - f.offset) 0) = f.cols.take (s10 - f.offset) := by
    unfold pyTake
    rw [if_pos (by omega)]; congr 1; omega
  unfold replaceRange
  simp only [hf, hb, Option.getD_some, hbeg, hend]
  generalize bs.take (findStart bs s10) ++ asList ⟨f.offset, f.cols.take (s10 - f.offset)⟩ = beg at *
  generalize asList ⟨s11, b.cols.drop (s11 - b.offset)⟩ ++ bs.drop (findStop bs s11 + 1) = end' at *
  -- first seam
  have step1 : ∃ J, mergeIf (beg.length ≠ 0) (beg ++ new ++ end') beg.length
      = (.ok (J ++ end') : Except PyErr _) ∧ Separated J ∧ J ≠ [] ∧
      (∀ t, sumAt J t = sumAt beg t + sumAt new t) ∧ ∀ x ∈ J, x.stop ≤ s11 := by
    by_cases h0 : beg = []
    · subst h0
      exact ⟨new, by simp [mergeIf], hn, hn0, fun t => by simp [sumAt], fun x hx => (hin x hx).2⟩
    · rw [mergeIf, if_pos (by simpa using h0)]
      obtain ⟨J, e1, e2, e3, e4, _, e6⟩ := join_spec beg new end' g1 hn h0 hn0
        (fun a ha c hc => le_trans (g2 a ha) (hin c hc).1)
      refine ⟨J, e1, e2, e3, e4, ?_⟩
      intro x hx
      rcases e6 x hx with ⟨a, ha, he⟩ | ⟨a, ha, he⟩
      · have := g2 a ha; omega
      · have := (hin a ha).2; omega
  obtain ⟨J, e1, e2, e3, e4, e5⟩ := step1
  rw [e1]
  simp only [bind, Except.bind]
  have hval : ∀ t, sumAt J t + sumAt end' t =
      if s10 ≤ t ∧ t < s11 then sumAt new t else sumAt bs t := by
    intro t
    rw [e4, g3, k3]
    by_cases h1 : t < s10
    · rw [if_pos h1, if_neg (by omega), if_neg (by omega),
        sumAt_eq_zero new t (fun x hx => by have := (hin x hx).1; left; omega), add_zero, add_zero]
    · rw [if_neg h1, zero_add]
      by_cases h2 : t < s11
      · rw [if_neg (by omega), if_pos (by omega), add_zero]
      · rw [if_pos (by omega), if_neg (by omega),
          sumAt_eq_zero new t (fun x hx => by have := (hin x hx).2; right; omega), zero_add]
  by_cases h0 : end' = []
  · subst h0
    refine ⟨J, by simp [mergeIf], e2, fun t => ?_⟩
    rw [← hval t]; simp [sumAt]
  · rw [mergeIf, if_pos (by simpa using h0)]
    obtain ⟨r, f1, f2, _, f4, _⟩ := join_spec J end' [] e2 k1 e3 h0
      (fun a ha c hc => le_trans (e5 a ha) (k2 c hc))
    rw [List.append_nil, List.append_nil] at f1
    refine ⟨r, ?_, f2, fun t => by rw [f4, hval]⟩
    rw [← f1]
    congr 1
    simp

/-! ### C24 -/

/-- The samples an assignment asks for. -/
def Value.at : Value M → Nat → Col M
  | .scalar c, _ => fun _ => c
  | .matrix cols, k => sample cols k

/-- C24 for a range `[s10, s11)` of a signal with separated blocks that ends inside a later block than
the one it starts in, or exactly where a block ends, and for values that are not zero throughout:
the signal holds the value inside the range and is unchanged outside; blocks stay separated, so that
the statement applies to the next assignment as well.  Missing for the full claim: ranges inside a
single block (`C24_inner_range_fails`), ranges ending in a gap (`C24_range_ending_in_gap_fails`), ranges in front of the first block
(`C24_front_fails`) and zero values (`C24_zero_scalar_fails`, `C24_zero_matrix_fails`). -/
theorem C24_assign_partial (bs : List (Block M)) (hs : Separated bs) (hM : 0 < M) (s10 s11 : Nat)
    (hlt : s10 < s11) (v : Value M)
    (hv : match v with
      | .scalar c => c ≠ 0
      | .matrix cols => cols.length = s11 - s10 ∧ (∃ c ∈ cols, c ≠ 0) ∧
          ∀ c ∈ cols, ∑ m, c m = 0 → c = 0)
    (j : Nat) (b : Block M) (hb : bs[j]? = some b) (h1 : b.offset ≤ s11) (h2 : s11 ≤ b.stop)
    (h3 : s11 = b.stop ∨ (0 < j ∧ s10 < b.offset)) :
    ∃ r, setItem bs s10 s11 v = .ok r ∧ Separated r ∧
      ∀ t, sumAt r t = if s10 ≤ t ∧ t < s11 then v.at (t - s10) else sumAt bs t := by
  have hne : bs ≠ [] := by rintro rfl; simp at hb
  have hmem : b ∈ bs := List.mem_iff_getElem?.mpr ⟨j, hb⟩
  have hnum := stop_le_numSamples bs hs.wf b hmem
  have hjl := (List.getElem?_eq_some_iff.mp hb).1
  obtain ⟨hi, hi1, hi2⟩ := findStart_spec bs hs.wf hne s10
  obtain ⟨hj, hj1, hj2⟩ := findStop_spec bs hs.wf hne s11
  have hpw := List.pairwise_iff_getElem.mp hs.1
  have hjeq : findStop bs s11 = j := by
    rcases Nat.lt_trichotomy (findStop bs s11) j with h | h | h
    · exfalso
      have h5 := hpw _ _ hj hjl h
      obtain ⟨_, rfl⟩ := List.getElem?_eq_some_iff.mp hb
      rcases hj1 with hj1 | hj1
      · omega
      · have := hj1 _ (List.getElem?_eq_getElem hj)
        omega
    · exact h
    · exfalso
      have := hj2 j b h hb
      omega
  rw [← hjeq] at hb
  have hcond : findStart bs s10 ≠ findStop bs s11 ∨ s11 = b.stop := by
    rcases h3 with h3 | ⟨h3, h5⟩
    · right; exact h3
    · left
      intro he
      rcases hi1 with hi1 | hi1
      · omega
      · rw [he] at hi1
        have := hi1 b hb
        omega
  have hspec := replaceRange_spec bs hs hM s10 s11 hlt (by omega) b hb h1 hcond
  obtain ⟨b0, rest, rfl⟩ := List.exists_cons_of_ne_nil hne
  have hb0 : b0.offset ≤ s11 := by
    rcases List.mem_cons.mp hmem with rfl | hr
    · exact h1
    · have := (List.pairwise_cons.mp hs.1).1 b hr
      have h6 : b0.offset ≤ b0.stop := Nat.le_add_right _ _
      omega
  unfold setItem
  simp only [Nat.min_eq_right (show s11 ≤ numSamples (b0 :: rest) by omega),
    Nat.min_eq_right (show s11 - s10 ≤ numSamples (b0 :: rest) by omega)]
  rw [if_neg (by omega), if_neg (by omega)]
  cases v with
  | scalar c =>
    dsimp only at hv ⊢
    rw [if_neg hv]
    obtain ⟨r, e1, e2, e3⟩ := hspec [⟨s10, List.replicate (s11 - s10) (fun _ => c)⟩]
      ⟨List.pairwise_singleton _ _, by
        intro x hx
        obtain rfl := List.mem_singleton.mp hx
        have : s11 - s10 ≠ 0 := by omega
        simp [this]⟩ (by simp) (by
        intro x hx
        obtain rfl := List.mem_singleton.mp hx
        simp only [Block.stop, List.length_replicate]
        omega)
    refine ⟨r, e1, e2, fun t => ?_⟩
    rw [e3 t]
    split
    · next ht =>
      simp only [sumAt, List.map_cons, List.map_nil, List.sum_cons, List.sum_nil, add_zero, Block.at,
        Value.at]
      rw [if_pos ht.1, List.getElem?_replicate, if_pos (by omega)]
      rfl
    · rfl
  | matrix cols =>
    dsimp only at hv ⊢
    obtain ⟨hlen, ⟨c0, hc0, hc0'⟩, hcan⟩ := hv
    have hcne : cols ≠ [] := by rintro rfl; simp at hc0
    have hsep := C21_blocks cols s10 hcne
    obtain ⟨w1, w2, w3⟩ := windows_spec _ (nonzeroCols_sorted cols)
    have hshow := fromDense_eq cols s10 hcne
    have hmemwin : ∀ x ∈ fromDense cols s10, s10 ≤ x.offset ∧ x.stop ≤ s11 := by
      intro x hx
      rw [hshow] at hx
      obtain ⟨w, hw, rfl⟩ := List.mem_map.mp hx
      have hlt' := w1 w hw
      have hin' : w.2 - 1 ∈ nonzeroCols cols := (w3 _).mpr ⟨w, hw, by omega, by omega⟩
      have := ((mem_nonzeroCols cols _).mp hin').1
      simp only [Block.stop, List.length_map, List.length_range]
      omega
    have hval : ∀ t, s10 ≤ t → sumAt (fromDense cols s10) t = sample cols (t - s10) := by
      intro t ht
      rw [hshow, showing_at _ _ _ w1 w2 t ht]
      split
      · rfl
      · next hn =>
        rw [← w3, mem_nonzeroCols] at hn
        by_cases hl : t - s10 < cols.length
        · have hsum : ∑ m, sample cols (t - s10) m = 0 := by
            by_contra hne'; exact hn ⟨hl, hne'⟩
          have hm : sample cols (t - s10) ∈ cols := by
            unfold sample; rw [List.getElem?_eq_getElem hl]; exact List.getElem_mem hl
          exact (hcan _ hm hsum).symm
        · rw [sample_ge _ _ (by omega)]
    have hnewne : fromDense cols s10 ≠ [] := by
      intro he
      obtain ⟨k, hk⟩ := List.mem_iff_getElem?.mp hc0
      have := hval (s10 + k) (by omega)
      rw [he, Nat.add_sub_cancel_left, sample, hk] at this
      exact hc0' (by simpa [sumAt] using this.symm)
    obtain ⟨r, e1, e2, e3⟩ := hspec (fromDense cols s10) hsep hnewne hmemwin
    have hhead : (fromDense cols s10).head? = some ((fromDense cols s10).head hnewne) :=
      List.head?_eq_some_head hnewne
    have hlast : (fromDense cols s10).getLast? = some ((fromDense cols s10).getLast hnewne) :=
      List.getLast?_eq_some_getLast hnewne
    rw [hhead, hlast]
    dsimp only
    have q1 := hmemwin _ (List.head_mem hnewne)
    have q2 := hmemwin _ (List.getLast_mem hnewne)
    rw [if_neg (by omega)]
    refine ⟨r, e1, e2, fun t => ?_⟩
    rw [e3 t]
    split
    · next ht => rw [hval t ht.1]; rfl
    · rfl

/-- C24: a nonzero scalar written entirely in front of the first block. -/
theorem C24_scalar_in_front (bs : List (Block M)) (hs : Separated bs) (b0 : Block M)
    (h0 : bs.head? = some b0) (s10 s11 : Nat) (hlt : s10 < s11) (hf : s11 < b0.offset) (c : ℂ)
    (hc : c ≠ 0) :
    ∃ r, setItem bs s10 s11 (.scalar c) = .ok r ∧ Separated r ∧
      ∀ t, sumAt r t = if s10 ≤ t ∧ t < s11 then fun _ => c else sumAt bs t := by
  obtain ⟨rest, rfl⟩ : ∃ rest, bs = b0 :: rest := by
    cases bs with
    | nil => simp at h0
    | cons x xs => exact ⟨xs, by simp at h0; rw [h0]⟩
  have hnum := stop_le_numSamples _ hs.wf b0 (by simp)
  have hst : b0.offset ≤ b0.stop := Nat.le_add_right _ _
  unfold setItem
  simp only [Nat.min_eq_right (show s11 ≤ numSamples (b0 :: rest) by omega),
    Nat.min_eq_right (show s11 - s10 ≤ numSamples (b0 :: rest) by omega)]
  rw [if_pos hf, if_neg hc]
  refine ⟨_, rfl, ⟨List.pairwise_cons.mpr ⟨?_, hs.1⟩, ?_⟩, ?_⟩
  · intro b hb
    have : b0.offset ≤ b.offset := by
      rcases List.mem_cons.mp hb with rfl | hb
      · exact le_refl _
      · have := (List.pairwise_cons.mp hs.1).1 b hb; omega
    simp only [Block.stop, List.length_replicate]
    omega
  · intro b hb
    rcases List.mem_cons.mp hb with rfl | hb
    · have : s11 - s10 ≠ 0 := by omega
      simp [this]
    · exact hs.2 b hb
  · intro t
    rw [sumAt_cons]
    split
    · next ht =>
      rw [sumAt_eq_zero (b0 :: rest) t (fun b hb => by
        have : b0.offset ≤ b.offset := by
          rcases List.mem_cons.mp hb with rfl | hb
          · exact le_refl _
          · have := (List.pairwise_cons.mp hs.1).1 b hb; omega
        left; omega), add_zero]
      unfold Block.at
      dsimp only
      rw [if_pos ht.1, List.getElem?_replicate, if_pos (by omega)]
      rfl
    · next ht =>
      rw [Block.at_eq_zero _ _ (by simp only [Block.stop, List.length_replicate]; omega), zero_add]

/-- Non-vacuity of `C24_assign_partial`: writing `[1, 4)` over a gap. -/
example : ∃ r, setItem ([⟨0, [![1], ![2]]⟩, ⟨3, [![3], ![4]]⟩] : List (Block 1)) 1 4 (.scalar 9) = .ok r ∧
    Separated r ∧ sumAt r 0 = ![1] ∧ sumAt r 2 = (fun _ => 9) ∧ sumAt r 4 = ![4] := by
  obtain ⟨r, h1, h2, h3⟩ := C24_assign_partial ([⟨0, [![1], ![2]]⟩, ⟨3, [![3], ![4]]⟩] : List (Block 1))
    (by simp [Separated, Block.stop]) (by norm_num) 1 4 (by norm_num) (.scalar 9) (by norm_num) 1 _ rfl
    (by norm_num) (by simp [Block.stop]) (Or.inr (by norm_num))
  refine ⟨r, h1, h2, ?_, ?_, ?_⟩
  · rw [h3]; simp [sumAt, Block.at]
  · rw [h3]; simp [Value.at]
  · rw [h3]; simp [sumAt, Block.at]

/-- C24 fails inside a block: overwriting the second of three samples deletes the third. -/
theorem C24_inner_range_fails :
    setItem ([⟨0, [![1], ![2], ![3]]⟩] : List (Block 1)) 1 2 (.scalar 9)
      = .ok [⟨0, [![1], fun _ => 9]⟩] := by
  simp [setItem, replaceRange, findStart, findStop, startLoop, stopLoop, numSamples, Block.stop,
    asList, mergeAt, mergeIf, pyTake, bind, Except.bind]

/-- C24 fails for ranges that end in a gap: overwriting samples 0 and 1 of `1 0 0 2 3` yields
`9 9 3`, a later sample is lost and another moved. -/
theorem C24_range_ending_in_gap_fails :
    setItem ([⟨0, [![1]]⟩, ⟨3, [![2], ![3]]⟩] : List (Block 1)) 0 2 (.scalar 9)
      = .ok [⟨0, [fun _ => 9, fun _ => 9, ![3]]⟩] := by
  simp [setItem, replaceRange, findStart, findStop, startLoop, stopLoop, numSamples, Block.stop,
    asList, mergeAt, mergeIf, pyTake, pyDrop, bind, Except.bind, List.replicate]

/-- C24 fails for a matrix written in front of the first block: it is stored at sample zero. -/
theorem C24_front_fails :
    setItem ([⟨3, [![1]]⟩] : List (Block 1)) 1 2 (.matrix [![7]])
      = .ok [⟨0, [![7]]⟩, ⟨3, [![1]]⟩] := by
  have h : nonzeroCols [(![7] : Col 1)] = [0] := by
    unfold nonzeroCols; simp [List.range_succ]
  simp [setItem, numSamples, Block.stop, fromDense, h, windows, winStarts, winStops, gaps]

/-- C24 fails for zeros: clearing the first of two blocks raises `IndexError` (although `__blocks` has
been replaced by then). -/
theorem C24_zero_scalar_fails :
    setItem ([⟨0, [![1]]⟩, ⟨2, [![2]]⟩] : List (Block 1)) 0 1 (.scalar 0) = .error .index := by
  simp [setItem, replaceRange, findStart, findStop, startLoop, stopLoop, numSamples, Block.stop,
    asList, mergeAt, mergeIf, pyTake, bind, Except.bind]

/-- C24 fails for zeros: assigning a matrix of zeros never changes anything. -/
theorem C24_zero_matrix_fails (b : Block M) (bs : List (Block M)) (hb : b.offset = 0) (s10 s11 : Nat)
    (cols : List (Col M)) (hc : cols ≠ []) (hz : ∀ c ∈ cols, c = 0) :
    setItem (b :: bs) s10 s11 (.matrix cols) = .ok (b :: bs) := by
  have h : nonzeroCols cols = [] := by
    rw [List.eq_nil_iff_forall_not_mem]
    intro t ht
    obtain ⟨h1, h2⟩ := (mem_nonzeroCols _ _).mp ht
    apply h2
    have hm : sample cols t ∈ cols := by
      unfold sample; rw [List.getElem?_eq_getElem h1]; exact List.getElem_mem h1
    rw [hz _ hm]; simp
  have hf : fromDense cols s10 = [] := by
    rw [fromDense_eq cols s10 hc, h]; rfl
  unfold setItem
  dsimp only
  rw [if_neg (by omega)]
  split
  · rfl
  · rw [hf]; rfl

end Verif.Signal
