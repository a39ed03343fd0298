import Verif.Signal.Model

/-!
# Windows of consecutive indices and dense views
-/

namespace Verif.Signal

theorem gaps_cons_cons (x y : Nat) (t : List Nat) :
    gaps (x :: y :: t) = if (y : Int) - x - 1 ≠ 0 then (x, y) :: gaps (y :: t) else gaps (y :: t) := by
  simp only [gaps, List.tail_cons, List.zip_cons_cons, List.filter_cons, decide_eq_true_eq]

theorem winStarts_cons (x : Nat) (t : List Nat) :
    winStarts (x :: t) = x :: (gaps (x :: t)).map (·.2) := by simp [winStarts]

theorem winStops_cons_cons (x y : Nat) (t : List Nat) :
    winStops (x :: y :: t) =
      if (y : Int) - x - 1 ≠ 0 then (x + 1) :: winStops (y :: t) else winStops (y :: t) := by
  simp only [winStops, gaps_cons_cons]
  split <;> simp [List.getLast?_cons_cons]

theorem windows_single (x : Nat) : windows [x] = [(x, x + 1)] := by
  simp [windows, winStarts, winStops, gaps]

theorem windows_cons_gap (x y : Nat) (t : List Nat) (h : (y : Int) - x - 1 ≠ 0) :
    windows (x :: y :: t) = (x, x + 1) :: windows (y :: t) := by
  simp only [windows, winStops_cons_cons, winStarts_cons, gaps_cons_cons, if_pos h, List.map_cons,
    List.zip_cons_cons]

theorem windows_cons_next (x : Nat) (t : List Nat) :
    ∃ s r, windows ((x + 1) :: t) = (x + 1, s) :: r ∧ windows (x :: (x + 1) :: t) = (x, s) :: r := by
  have h : ¬ (((x + 1 : Nat) : Int) - x - 1 ≠ 0) := by push_cast; omega
  have hne : winStops ((x + 1) :: t) ≠ [] := by
    simp [winStops, List.getLast?_cons]
  obtain ⟨s, r, hr⟩ := List.exists_cons_of_ne_nil hne
  refine ⟨s, (((gaps ((x + 1) :: t)).map (·.2)).zip r), ?_, ?_⟩
  · simp only [windows, winStarts_cons, hr, List.zip_cons_cons]
  · simp only [windows, winStops_cons_cons, winStarts_cons, gaps_cons_cons, if_neg h, hr,
      List.zip_cons_cons]

/-- What the windows of a strictly increasing index list are: non-empty, separated by at least one
index, and covering exactly the listed indices. -/
theorem windows_spec (nz : List Nat) (h : nz.Pairwise (· < ·)) :
    (∀ w ∈ windows nz, w.1 < w.2) ∧ (windows nz).Pairwise (fun a b => a.2 < b.1) ∧
    (∀ t, t ∈ nz ↔ ∃ w ∈ windows nz, w.1 ≤ t ∧ t < w.2) := by
  induction nz with
  | nil => simp [windows, winStarts, winStops, gaps]
  | cons x t ih =>
    cases t with
    | nil =>
      rw [windows_single]
      refine ⟨by simp, by simp, fun t => ?_⟩
      simp only [List.mem_singleton, exists_eq_left]
      omega
    | cons y t =>
      obtain ⟨i1, i2, i3⟩ := ih (List.pairwise_cons.mp h).2
      have hxy : x < y := (List.pairwise_cons.mp h).1 y (by simp)
      have hlow : ∀ w ∈ windows (y :: t), y ≤ w.1 := by
        intro w hw
        have hm := (i3 w.1).mpr ⟨w, hw, le_rfl, i1 w hw⟩
        rcases List.mem_cons.mp hm with e | hm
        · omega
        · have := (List.pairwise_cons.mp (List.pairwise_cons.mp h).2).1 _ hm
          omega
      by_cases hg : (y : Int) - x - 1 ≠ 0
      · rw [windows_cons_gap x y t hg]
        refine ⟨?_, ?_, ?_⟩
        · intro w hw
          rcases List.mem_cons.mp hw with rfl | hw
          · simp
          · exact i1 w hw
        · refine List.pairwise_cons.mpr ⟨fun w hw => ?_, i2⟩
          have := hlow w hw
          show x + 1 < w.1
          omega
        · intro u
          rw [List.mem_cons, i3 u]
          simp only [List.exists_mem_cons_iff]
          constructor
          · rintro (rfl | h)
            · exact Or.inl ⟨le_rfl, Nat.lt_succ_self _⟩
            · exact Or.inr h
          · rintro (⟨a, b⟩ | h)
            · left; omega
            · exact Or.inr h
      · have hy : y = x + 1 := by omega
        subst hy
        obtain ⟨s, r, hs, hr⟩ := windows_cons_next x t
        rw [hs] at i1 i2 i3
        rw [hr]
        refine ⟨?_, ?_, ?_⟩
        · intro w hw
          rcases List.mem_cons.mp hw with rfl | hw
          · have := i1 (x + 1, s) (by simp)
            dsimp only at this ⊢; omega
          · exact i1 w (by simp [hw])
        · exact List.pairwise_cons.mpr ⟨(List.pairwise_cons.mp i2).1, (List.pairwise_cons.mp i2).2⟩
        · intro u
          have hs1 := i1 (x + 1, s) (by simp)
          rw [List.mem_cons, i3 u]
          simp only [List.exists_mem_cons_iff]
          dsimp only at hs1 ⊢
          constructor
          · rintro (rfl | ⟨a, b⟩ | h)
            · left; omega
            · left; omega
            · exact Or.inr h
          · rintro (⟨a, b⟩ | h)
            · by_cases e : u = x
              · exact Or.inl e
              · right; left; omega
            · exact Or.inr (Or.inr h)

/-! ### Dense views -/

variable {M : Nat}

theorem Block.at_eq_zero (b : Block M) (t : Nat) (h : t < b.offset ∨ b.stop ≤ t) : b.at t = 0 := by
  unfold Block.at
  unfold Block.stop at h
  split
  · rw [List.getElem?_eq_none (by omega)]; rfl
  · rfl

/-- The value of a block list at `t`: the sum of the values of its blocks. -/
def sumAt (bs : List (Block M)) (t : Nat) : Col M := (bs.map fun b => b.at t).sum

theorem sumAt_eq_zero (bs : List (Block M)) (t : Nat)
    (h : ∀ b ∈ bs, t < b.offset ∨ b.stop ≤ t) : sumAt bs t = 0 := by
  unfold sumAt
  apply List.sum_eq_zero
  intro x hx
  obtain ⟨b, hb, rfl⟩ := List.mem_map.mp hx
  exact b.at_eq_zero t (h b hb)

theorem assign_spec (d : List (Col M)) (off : Nat) (cols : List (Col M))
    (h : off + cols.length ≤ d.length) :
    ∃ d', assign d off cols = .ok d' ∧ d'.length = d.length ∧
      ∀ t, sample d' t = if off ≤ t ∧ t < off + cols.length then (cols[t - off]?).getD 0
        else sample d t := by
  refine ⟨_, by rw [assign, if_pos h], by simp; omega, ?_⟩
  intro t
  unfold sample
  have hl : (d.take off).length = off := by simp; omega
  by_cases h1 : t < off
  · rw [if_neg (by omega), List.append_assoc, List.getElem?_append_left (by omega),
      List.getElem?_take_of_lt h1]
  · by_cases h2 : t < off + cols.length
    · rw [if_pos (by omega), List.getElem?_append_left (by simp; omega),
        List.getElem?_append_right (by omega), hl]
    · rw [if_neg (by omega), List.getElem?_append_right (by simp; omega), List.getElem?_drop]
      congr 2
      simp
      omega

theorem assignAll_spec (bs : List (Block M)) (d : List (Col M)) (hwf : WF bs)
    (hlen : ∀ b ∈ bs, b.stop ≤ d.length)
    (hz : ∀ b ∈ bs, ∀ t, b.offset ≤ t → sample d t = 0) :
    ∃ d', assignAll bs d = .ok d' ∧ d'.length = d.length ∧
      ∀ t, sample d' t = sample d t + sumAt bs t := by
  induction bs generalizing d with
  | nil => exact ⟨d, rfl, rfl, fun t => by simp [sumAt]⟩
  | cons b bs ih =>
    obtain ⟨d1, h1, h2, h3⟩ := assign_spec d b.offset b.cols (hlen b (by simp))
    have hv : ∀ t, sample d1 t = sample d t + b.at t := by
      intro t
      rw [h3 t]
      split
      · next h =>
        rw [hz b (by simp) t h.1, zero_add, Block.at, if_pos h.1]
      · next h =>
        rw [b.at_eq_zero t (by unfold Block.stop; omega), add_zero]
    have hp := List.pairwise_cons.mp hwf
    obtain ⟨d2, h4, h5, h6⟩ := ih d1 hp.2 (fun c hc => by rw [h2]; exact hlen c (by simp [hc]))
      (fun c hc t ht => by
        have := hp.1 c hc
        rw [hv t, hz b (by simp) t (by unfold Block.stop at this; omega),
          b.at_eq_zero t (by omega), add_zero])
    refine ⟨d2, by simp [assignAll, h1, h4, bind, Except.bind], by omega, fun t => ?_⟩
    rw [h6 t, hv t, sumAt, sumAt, List.map_cons, List.sum_cons, add_assoc]

theorem stop_le_numSamples (bs : List (Block M)) (hwf : WF bs) : ∀ b ∈ bs, b.stop ≤ numSamples bs := by
  intro b hb
  unfold numSamples
  cases h : bs.getLast? with
  | none =>
    rw [List.getLast?_eq_none_iff] at h
    simp [h] at hb
  | some l =>
    obtain ⟨ini, rfl⟩ := List.getLast?_eq_some_iff.mp h
    rcases List.mem_append.mp hb with hb | hb
    · have := (List.pairwise_append.mp hwf).2.2 b hb l (by simp)
      unfold Block.stop at this ⊢
      dsimp only; omega
    · simp at hb; subst hb; exact le_rfl

/-- The dense view of a well-formed block list exists and shows at every time the value of the block
covering it, zero elsewhere. -/
theorem toDense_spec (bs : List (Block M)) (hwf : WF bs) :
    ∃ d, toDense bs = .ok d ∧ d.length = numSamples bs ∧ ∀ t, sample d t = sumAt bs t := by
  obtain ⟨d, h1, h2, h3⟩ := assignAll_spec bs (List.replicate (numSamples bs) (0 : Col M)) hwf
    (fun b hb => by simpa using stop_le_numSamples bs hwf b hb)
    (fun b _ t _ => by
      unfold sample
      rw [List.getElem?_replicate]
      split <;> rfl)
  refine ⟨d, h1, by simpa using h2, fun t => ?_⟩
  rw [h3 t]
  unfold sample
  rw [List.getElem?_replicate]
  split <;> simp

theorem Separated.wf {bs : List (Block M)} (h : Separated bs) : WF bs :=
  h.1.imp fun hab => le_of_lt hab

end Verif.Signal
