import Verif.Signal.Windows

/-!
# C21, C22: sparse representation and superposition
-/

namespace Verif.Signal

variable {M : Nat}

/-- The blocks that show the function `F` on windows `ws`. -/
def showing (F : Nat → Col M) (off : Nat) (ws : List (Nat × Nat)) : List (Block M) :=
  ws.map fun w => ⟨off + w.1, (List.range (w.2 - w.1)).map fun i => F (w.1 + i)⟩

theorem showing_separated (F : Nat → Col M) (off : Nat) (ws : List (Nat × Nat))
    (h1 : ∀ w ∈ ws, w.1 < w.2) (h2 : ws.Pairwise fun a b => a.2 < b.1) :
    Separated (showing F off ws) := by
  constructor
  · unfold showing
    rw [List.pairwise_map]
    refine List.Pairwise.imp_of_mem ?_ h2
    intro a b ha _ hab
    have := h1 a ha
    simp only [Block.stop, List.length_map, List.length_range]
    omega
  · intro b hb
    obtain ⟨w, hw, rfl⟩ := List.mem_map.mp hb
    have := h1 w hw
    intro h
    have : ((List.range (w.2 - w.1)).map fun i => F (w.1 + i)).length = 0 :=
      congrArg List.length h
    simp at this
    omega

theorem showing_at (F : Nat → Col M) (off : Nat) (ws : List (Nat × Nat))
    (h1 : ∀ w ∈ ws, w.1 < w.2) (h2 : ws.Pairwise fun a b => a.2 < b.1) (t : Nat) (ht : off ≤ t) :
    sumAt (showing F off ws) t = if ∃ w ∈ ws, w.1 ≤ t - off ∧ t - off < w.2 then F (t - off) else 0 := by
  induction ws with
  | nil => simp [showing, sumAt]
  | cons w ws ih =>
    have hp := List.pairwise_cons.mp h2
    have ih := ih (fun v hv => h1 v (by simp [hv])) hp.2
    have hcons : sumAt (showing F off (w :: ws)) t =
        Block.at ⟨off + w.1, (List.range (w.2 - w.1)).map fun i => F (w.1 + i)⟩ t
          + sumAt (showing F off ws) t := by
      simp [sumAt, showing]
    rw [hcons, ih]
    by_cases hw : w.1 ≤ t - off ∧ t - off < w.2
    · rw [if_neg, if_pos ⟨w, by simp, hw⟩, add_zero, Block.at, if_pos (by dsimp only; omega)]
      · dsimp only
        rw [List.getElem?_map, List.getElem?_range (by omega)]
        simp only [Option.map_some, Option.getD_some]
        congr 1; omega
      · rintro ⟨v, hv, h3, h4⟩
        have := hp.1 v hv
        omega
    · rw [Block.at_eq_zero _ _ (by simp only [Block.stop, List.length_map, List.length_range]; omega),
        zero_add]
      congr 1
      apply propext
      constructor
      · rintro ⟨v, hv, h⟩; exact ⟨v, by simp [hv], h⟩
      · rintro ⟨v, hv, h⟩
        rcases List.mem_cons.mp hv with rfl | hv
        · exact absurd h hw
        · exact ⟨v, hv, h⟩

/-! ### C21 -/

theorem nonzeroCols_sorted (cols : List (Col M)) : (nonzeroCols cols).Pairwise (· < ·) :=
  List.Pairwise.filter _ List.pairwise_lt_range

theorem mem_nonzeroCols (cols : List (Col M)) (t : Nat) :
    t ∈ nonzeroCols cols ↔ t < cols.length ∧ ∑ m : Fin M, sample cols t m ≠ 0 := by
  classical
  simp [nonzeroCols, sample]

theorem fromDense_eq (cols : List (Col M)) (off : Nat) (h : cols ≠ []) :
    fromDense cols off = showing (sample cols) off (windows (nonzeroCols cols)) := by
  have hl : cols.length ≠ 0 := by simpa using h
  rw [fromDense, if_neg hl, showing]
  apply List.map_congr_left
  intro w hw
  obtain ⟨h1, _, h3⟩ := windows_spec _ (nonzeroCols_sorted cols)
  have hlt := h1 w hw
  have hin : w.2 - 1 ∈ nonzeroCols cols := (h3 _).mpr ⟨w, hw, by omega, by omega⟩
  have hle := ((mem_nonzeroCols cols _).mp hin).1
  congr 1
  apply List.ext_getElem?
  intro i
  by_cases hi : i < w.2 - w.1
  · rw [Np.getElem?_take_drop _ _ _ _ hi, List.getElem?_map, List.getElem?_range hi]
    simp only [Option.map_some, sample]
    rw [List.getElem?_eq_getElem (by omega)]
    rfl
  · rw [List.getElem?_eq_none (by simp; omega), List.getElem?_eq_none (by simp; omega)]

/-- C21, structure: for every sample matrix, the blocks of its sparse form are non-empty, strictly
increasing, and neither overlap nor touch. -/
theorem C21_blocks (cols : List (Col M)) (off : Nat) (h : cols ≠ []) :
    Separated (fromDense cols off) := by
  obtain ⟨h1, h2, _⟩ := windows_spec _ (nonzeroCols_sorted cols)
  rw [fromDense_eq cols off h]
  exact showing_separated _ _ _ h1 h2

theorem length_le_of_separated {cols : List (Col M)} (h : cols ≠ []) :
    numSamples (fromDense cols 0) ≤ cols.length := by
  unfold numSamples
  cases hb : (fromDense cols 0).getLast? with
  | none => exact Nat.zero_le _
  | some b =>
    have hmem := List.mem_of_getLast? hb
    rw [fromDense_eq cols 0 h] at hmem
    obtain ⟨w, hw, rfl⟩ := List.mem_map.mp hmem
    obtain ⟨h1, _, h3⟩ := windows_spec _ (nonzeroCols_sorted cols)
    have hlt := h1 w hw
    have hin : w.2 - 1 ∈ nonzeroCols cols := (h3 _).mpr ⟨w, hw, by omega, by omega⟩
    have hle := ((mem_nonzeroCols cols _).mp hin).1
    simp only [Block.stop, List.length_map, List.length_range]
    omega

/-- C21 for every matrix none of whose non-zero columns sums to zero over the streams: converting to
the sparse form and back returns the same samples, at most shorter by zeros at the end.  Missing for
the full claim: columns that cancel, see `C21_cancelling_columns_fails`. -/
theorem C21_round_trip_partial (cols : List (Col M))
    (hc : ∀ c ∈ cols, ∑ m, c m = 0 → c = 0) :
    ∃ d, toDense (fromDense cols 0) = .ok d ∧ d.length ≤ cols.length ∧
      ∀ t, sample d t = sample cols t := by
  by_cases h : cols = []
  · subst h
    exact ⟨[], by simp [fromDense, toDense, numSamples, Block.stop, assignAll, assign, bind,
      Except.bind], le_rfl, fun t => rfl⟩
  · obtain ⟨h1, h2, h3⟩ := windows_spec _ (nonzeroCols_sorted cols)
    obtain ⟨d, hd, hlen, hs⟩ := toDense_spec _ (C21_blocks cols 0 h).wf
    refine ⟨d, hd, by rw [hlen]; exact length_le_of_separated h, fun t => ?_⟩
    rw [hs t, fromDense_eq cols 0 h, showing_at _ _ _ h1 h2 t (Nat.zero_le _)]
    simp only [Nat.sub_zero]
    split
    · rfl
    · next hn =>
      rw [← h3 t, mem_nonzeroCols] at hn
      by_cases ht : t < cols.length
      · have hsum : ∑ m, sample cols t m = 0 := by
          by_contra hne; exact hn ⟨ht, hne⟩
        have hmem : sample cols t ∈ cols := by
          unfold sample; rw [List.getElem?_eq_getElem ht]; exact List.getElem_mem ht
        exact (hc _ hmem hsum).symm
      · unfold sample; rw [List.getElem?_eq_none (by omega)]; rfl

/-- C21 in full for single-stream signals. -/
theorem C21_single_stream (cols : List (Col 1)) :
    ∃ d, toDense (fromDense cols 0) = .ok d ∧ d.length ≤ cols.length ∧
      ∀ t, sample d t = sample cols t := by
  apply C21_round_trip_partial
  intro c _ h
  funext m
  rw [Subsingleton.elim m 0]
  simpa using h

/-- C21 fails for columns whose entries cancel: the sample `(1, -1)` of a two-stream signal is
dropped, and the round trip returns an empty matrix. -/
theorem C21_cancelling_columns_fails :
    toDense (fromDense [(![1, -1] : Col 2)] 0) = .ok [] := by
  have h : nonzeroCols [(![1, -1] : Col 2)] = [] := by
    rw [List.eq_nil_iff_forall_not_mem]
    intro t ht
    obtain ⟨h1, h2⟩ := (mem_nonzeroCols _ _).mp ht
    have : t = 0 := by simpa using h1
    subst this
    simp [sample] at h2
  simp [fromDense, h, windows, winStarts, winStops, gaps, toDense, numSamples, assignAll]

/-- Non-vacuity of `C21_round_trip_partial`: two streams, leading, inner and trailing zero columns. -/
example : ∀ c ∈ ([0, ![1, 2], 0, ![0, 3], 0] : List (Col 2)), ∑ m, c m = 0 → c = 0 := by
  intro c hc
  simp only [List.mem_cons, List.not_mem_nil, or_false] at hc
  rcases hc with rfl | rfl | rfl | rfl | rfl <;> intro h <;> first
    | rfl
    | (exfalso; simp [Fin.sum_univ_two] at h; done)
    | (exfalso; simp [Fin.sum_univ_two] at h; norm_num at h)

/-! ### C22 -/

theorem union1d_sorted (a b : List Nat) : (union1d a b).Pairwise (· < ·) := by
  have h1 : ((a ++ b).mergeSort (fun x y => decide (x ≤ y))).Pairwise (fun x y => x ≤ y) := by
    have := List.pairwise_mergeSort (le := fun x y : Nat => decide (x ≤ y))
      (fun a b c h1 h2 => by simp at h1 h2 ⊢; omega) (fun a b => by simp; omega) (a ++ b)
    exact this.imp (by simp)
  have h2 : (union1d a b).Pairwise (fun x y => x ≤ y) :=
    h1.sublist (List.dedup_sublist _)
  have h3 : (union1d a b).Nodup := List.nodup_dedup _
  exact (h2.and h3).imp fun ⟨h, hne⟩ => lt_of_le_of_ne h hne

theorem mem_union1d (a b : List Nat) (t : Nat) : t ∈ union1d a b ↔ t ∈ a ∨ t ∈ b := by
  simp [union1d]

theorem mem_covered (bs : List (Block M)) (t : Nat) :
    t ∈ covered bs ↔ ∃ b ∈ bs, b.offset ≤ t ∧ t < b.stop := by
  simp only [covered, List.mem_flatMap, List.mem_map, List.mem_range, Block.stop]
  constructor
  · rintro ⟨b, hb, i, hi, rfl⟩; exact ⟨b, hb, by omega, by omega⟩
  · rintro ⟨b, hb, h1, h2⟩; exact ⟨b, hb, t - b.offset, by omega, by omega⟩

theorem sample_ge (d : List (Col M)) (t : Nat) (h : d.length ≤ t) : sample d t = 0 := by
  unfold sample; rw [List.getElem?_eq_none h]; rfl

theorem addRange_spec (u : List (Col M)) (ws we : Nat) (src : List (Col M))
    (h1 : src.length = we - ws) (h2 : we ≤ u.length) :
    ∃ u', addRange u ws we src = .ok u' ∧ u'.length = u.length ∧
      ∀ i, sample u' i = sample u i + if ws ≤ i ∧ i < we then sample src (i - ws) else 0 := by
  refine ⟨_, by rw [addRange, if_pos ⟨h1, h2⟩], ?_, ?_⟩
  · simp only [List.length_append, List.length_take, List.length_zipWith, List.length_drop, h1]
    by_cases hw : ws ≤ we
    · rw [max_eq_right hw]; omega
    · rw [max_eq_left (by omega)]; omega
  · intro i
    unfold sample
    by_cases hle : ws ≤ we
    · rw [max_eq_right hle]
      have hA : (u.take ws).length = ws := by simp; omega
      have hB : (List.zipWith (· + ·) ((u.drop ws).take (we - ws)) src).length = we - ws := by
        simp [h1]; omega
      by_cases ha : i < ws
      · rw [if_neg (by omega), add_zero, List.append_assoc, List.getElem?_append_left (by omega),
          List.getElem?_take_of_lt ha]
      · by_cases hb : i < we
        · rw [if_pos (by omega), List.getElem?_append_left (by rw [List.length_append]; omega),
            List.getElem?_append_right (by omega), hA, List.getElem?_zipWith,
            Np.getElem?_take_drop _ _ _ _ (by omega), show ws + (i - ws) = i by omega,
            List.getElem?_eq_getElem (show i < u.length by omega),
            List.getElem?_eq_getElem (show i - ws < src.length by omega)]
          rfl
        · rw [if_neg (by omega), add_zero, List.getElem?_append_right (by
            rw [List.length_append]; omega), List.length_append, hA, hB, List.getElem?_drop]
          congr 2; omega
    · rw [max_eq_left (by omega)]
      have hs : src = [] := List.length_eq_zero_iff.mp (by omega)
      rw [hs, if_neg (by omega), add_zero, List.zipWith_nil_right, List.append_nil,
        List.take_append_drop]

/-- The block loop adds to a window exactly the samples of the blocks inside the window. -/
theorem addBlocks_spec (wOff wStop : Nat) (hw : wOff ≤ wStop) (bs : List (Block M)) (hwf : WF bs)
    (u : List (Col M)) (hu : u.length = wStop - wOff) :
    ∃ u', addBlocks wOff wStop bs u = .ok u' ∧ u'.length = wStop - wOff ∧
      ∀ i, i < wStop - wOff → sample u' i = sample u i + sumAt bs (wOff + i) := by
  induction bs generalizing u with
  | nil => exact ⟨u, rfl, hu, fun i _ => by simp [sumAt]⟩
  | cons b bs ih =>
    have hp := List.pairwise_cons.mp hwf
    have hcons : ∀ t, sumAt (b :: bs) t = b.at t + sumAt bs t := by intro t; simp [sumAt]
    rw [addBlocks]
    by_cases h1 : b.stop < wOff
    · rw [if_pos h1]
      obtain ⟨u', e1, e2, e3⟩ := ih hp.2 u hu
      refine ⟨u', e1, e2, fun i hi => ?_⟩
      rw [e3 i hi, hcons, b.at_eq_zero _ (by omega), zero_add]
    · rw [if_neg h1]
      by_cases h2 : b.offset > wStop
      · rw [if_pos h2]
        refine ⟨u, rfl, hu, fun i hi => ?_⟩
        rw [sumAt_eq_zero, add_zero]
        intro c hc
        rcases List.mem_cons.mp hc with rfl | hc
        · left; omega
        · have := hp.1 c hc
          left; unfold Block.stop at this; omega
      · rw [if_neg h2]
        have hst : b.stop = b.offset + b.cols.length := rfl
        obtain ⟨u1, e1, e2, e3⟩ := addRange_spec u (b.offset - wOff)
          (min (wStop - wOff) (b.offset + b.cols.length - wOff))
          ((b.cols.drop (wOff - b.offset)).take
            (min b.cols.length (wOff + (wStop - wOff) - b.offset) - (wOff - b.offset)))
          (by simp only [List.length_take, List.length_drop]; omega) (by omega)
        obtain ⟨u2, f1, f2, f3⟩ := ih hp.2 u1 (by omega)
        refine ⟨u2, by simp only [e1, bind, Except.bind, f1], f2, fun i hi => ?_⟩
        rw [f3 i hi, e3 i, hcons, add_assoc]
        congr 2
        by_cases hin : b.offset ≤ wOff + i ∧ wOff + i < b.stop
        · rw [if_pos (by omega), Block.at, if_pos hin.1]
          unfold sample
          rw [List.getElem?_take_of_lt (by omega), List.getElem?_drop]
          congr 2; omega
        · rw [if_neg (by omega), b.at_eq_zero _ (by omega)]

theorem mapM_windows (a b : List (Block M)) (ha : WF a) (hb : WF b) (ws : List (Nat × Nat))
    (h1 : ∀ w ∈ ws, w.1 < w.2) :
    (ws.mapM fun w => do
      let u ← addBlocks w.1 w.2 a (List.replicate (w.2 - w.1) 0)
      let u ← addBlocks w.1 w.2 b u
      (.ok ⟨w.1, u⟩ : Except PyErr (Block M))) =
    .ok (showing (fun t => sumAt a t + sumAt b t) 0 ws) := by
  induction ws with
  | nil => rfl
  | cons w ws ih =>
    have hw := h1 w (by simp)
    obtain ⟨u1, e1, e2, e3⟩ := addBlocks_spec w.1 w.2 hw.le a ha (List.replicate (w.2 - w.1) 0)
      (by simp)
    obtain ⟨u2, f1, f2, f3⟩ := addBlocks_spec w.1 w.2 hw.le b hb u1 e2
    have hu : u2 = (List.range (w.2 - w.1)).map fun i => sumAt a (w.1 + i) + sumAt b (w.1 + i) := by
      apply List.ext_getElem?
      intro i
      by_cases hi : i < w.2 - w.1
      · rw [List.getElem?_map, List.getElem?_range hi, Option.map_some]
        have g1 := f3 i hi
        have g2 := e3 i hi
        have g3 : sample (List.replicate (w.2 - w.1) (0 : Col M)) i = 0 := by
          unfold sample; rw [List.getElem?_replicate]; split <;> rfl
        rw [g3, zero_add] at g2
        rw [g2] at g1
        unfold sample at g1
        rw [List.getElem?_eq_getElem (by omega)] at g1 ⊢
        simp only [Option.getD_some] at g1
        rw [g1]
      · rw [List.getElem?_eq_none (by omega), List.getElem?_eq_none (by simp; omega)]
    rw [List.mapM_cons, e1]
    simp only [bind, Except.bind, f1] at ih ⊢
    rw [ih (fun v hv => h1 v (by simp [hv]))]
    simp only [pure, Except.pure, showing, List.map_cons, Nat.zero_add, hu]

/-- Summation of two well-formed block lists. -/
theorem superimposeBlocks_spec (a b : List (Block M)) (ha : WF a) (hb : WF b) :
    ∃ r, superimposeBlocks a b = .ok r ∧ WF r ∧ (covered a ++ covered b ≠ [] → Separated r) ∧
      ∀ t, sumAt r t = sumAt a t + sumAt b t := by
  obtain ⟨h1, h2, h3⟩ := windows_spec _ (union1d_sorted (covered a) (covered b))
  have hm := mapM_windows a b ha hb (blocksUnion a b) h1
  have hval : ∀ t, sumAt (showing (fun t => sumAt a t + sumAt b t) 0 (blocksUnion a b)) t =
      sumAt a t + sumAt b t := by
    intro t
    rw [blocksUnion, showing_at _ _ _ h1 h2 t (Nat.zero_le _)]
    simp only [Nat.sub_zero]
    split
    · rfl
    · next hn =>
      have hn' : t ∉ union1d (covered a) (covered b) := fun hin => hn ((h3 t).mp hin)
      rw [mem_union1d, mem_covered, mem_covered] at hn'
      push Not at hn'
      rw [sumAt_eq_zero a t (fun c hc => by
          by_contra hcon
          push Not at hcon
          exact absurd hcon.2 (not_lt.mpr (hn'.1 c hc hcon.1))),
        sumAt_eq_zero b t (fun c hc => by
          by_contra hcon
          push Not at hcon
          exact absurd hcon.2 (not_lt.mpr (hn'.2 c hc hcon.1))), add_zero]
  have hsep := showing_separated (fun t => sumAt a t + sumAt b t) 0 (blocksUnion a b) h1 h2
  unfold superimposeBlocks
  rw [hm]
  refine ⟨_, rfl, ?_, ?_, ?_⟩
  · split
    · exact List.pairwise_singleton _ _
    · exact hsep.wf
  · intro hne
    rw [if_neg]
    · exact hsep
    · intro hlen
      have he : blocksUnion a b = [] := by simpa [showing] using hlen
      obtain ⟨t, ht⟩ := List.exists_mem_of_ne_nil _ hne
      have : t ∈ union1d (covered a) (covered b) := by
        rw [mem_union1d]; exact List.mem_append.mp ht
      obtain ⟨w, hw, _⟩ := (h3 t).mp this
      change w ∈ blocksUnion a b at hw
      rw [he] at hw
      simp at hw
  · intro t
    split
    · next hlen =>
      have he : showing (fun t => sumAt a t + sumAt b t) 0 (blocksUnion a b) = [] :=
        List.length_eq_zero_iff.mp hlen
      rw [← hval t, he]
      rw [sumAt_eq_zero _ _ (by simp [Block.stop])]
      rfl
    · exact hval t

end Verif.Signal
