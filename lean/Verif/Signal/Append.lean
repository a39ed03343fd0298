import Verif.Signal.Slice

/-!
# C140: appending to sparse signals

`SparseSignal.append_samples` and `append_streams` of `hermespy/core/signal_model.py`, on the model of blocks and slices of C21 to C24.
`resample` stands for `SignalBlock.resample_block` between the sampling rates of both signals (513-584, see C133), which copies blocks between
equal rates.  Samples are given as complex numbers of double precision.
-/

namespace Verif.SparseAppend

open Verif (PyErr)
open Verif.Signal

variable {M K : Nat}

/-- What is appended: a sparse signal, or a dense signal or matrix. -/
inductive Value (K : Nat)
  | sparse (bs : List (Block K))
  | dense (cols : List (Col K))

/-- `value.blocks`, `signal_model.py` 1300-1305 and 1675-1678; a matrix is its only block, 2589-2592 and 2609. -/
def Value.blocks : Value K → List (Block K)
  | .sparse bs => bs
  | .dense cols => [⟨0, cols⟩]

/-- The samples that are appended, zero where there are none. -/
def Value.at : Value K → Nat → Col K
  | .sparse bs, t => sumAt bs t
  | .dense cols, t => sample cols t

/-- `signal[:, start:stop].view(np.ndarray)` of a sparse signal, 2040-2165 and 1725-1741: without any block left, the array has no streams and no samples,
`none`, otherwise it ends with the last block. -/
def viewSparse (bs : List (Block M)) (start stop : Nat) : Except PyErr (Option (List (Col M))) :=
  match getSlice id (some (start : Int)) (some (stop : Int)) 1 bs with
  | [] => .ok none
  | b :: r => (toDense (b :: r)).map some

/-- `value[:, start:stop].view(np.ndarray)`. -/
def Value.view : Value K → Nat → Nat → Except PyErr (Option (List (Col K)))
  | .sparse bs, start, stop => viewSparse bs start stop
  | .dense cols, start, stop => .ok (some ((cols.drop start).take (stop - start)))

/-- Number of columns of an array. -/
def width {α : Type} : Option (List α) → Nat
  | none => 0
  | some l => l.length

/-- `np.concatenate((a, b), axis=0)` and the block made of it, 2625-2635: `concatenate` refuses different numbers of columns,
`SignalBlock.__new__` buffers smaller than the block.  (An array without streams has no columns, while windows are never empty.) -/
def stack (start stop : Nat) (a : Option (List (Col M))) (b : Option (List (Col K))) : Except PyErr (Block (M + K)) :=
  if width a ≠ width b then .error .value
  else if width a ≠ stop - start then .error .type
  else .ok ⟨start, List.zipWith (fun x y => Fin.append x y) (a.getD []) (b.getD [])⟩

/-- `append_streams`, `signal_model.py` 2601-2638: the blocks are the union of those of this signal and the resampled and sparsified blocks of the
other; the samples in them are taken from this and from the other signal as it is. -/
noncomputable def appendStreams (resample : Block K → Except PyErr (Block K)) (bs : List (Block M)) (v : Value K) :
    Except PyErr (List (Block (M + K))) := do
  let r ← v.blocks.mapM resample
  let incoming := r.flatMap fun b => fromDense b.cols b.offset
  (union1d (covered bs) (covered incoming) |> windows).mapM fun w => do
    let a ← viewSparse bs w.1 w.2
    let b ← v.view w.1 w.2
    stack w.1 w.2 a b

/-- `value.shape[0]`, `signal_model.py` 1697-1702: sparse signals without blocks have no streams. -/
def Value.streams : Value M → Nat
  | .sparse [] => 0
  | _ => M

/-- `append_samples`, `signal_model.py` 2576-2598, of as many streams; other numbers of streams are refused in lines 2578-2579. -/
def appendSamples (resample : Block M → Except PyErr (Block M)) (bs : List (Block M)) (v : Value M) : Except PyErr (List (Block M)) :=
  if (Value.sparse bs).streams ≠ v.streams then .error .value
  else do
    let r ← v.blocks.mapM resample
    .ok (bs ++ r.map fun b => { b with offset := b.offset + numSamples bs })

/-! ### Slices -/

/-- Blocks of a slice end where the blocks or the slice end. -/
theorem sliceBlock_stop (start stop : Nat) (h : start < stop) (b : Block M) (c : Block M)
    (hc : sliceBlock id (start : Int) (stop : Int) 1 b = some c) :
    b.offset < stop ∧ start < b.stop ∧ c.stop = min stop b.stop - start := by
  unfold sliceBlock at hc
  split at hc
  · simp at hc
  · rename_i hn
    simp only [Option.some.injEq] at hc
    subst hc
    have hst : b.stop = b.offset + b.cols.length := rfl
    simp only [Block.stop, List.length_map, List.length_range] at *
    refine ⟨by omega, by omega, by omega⟩

/-- What a slice of a sparse signal looks like. -/
theorem viewSparse_spec (bs : List (Block M)) (hw : WF bs) (start stop : Nat) (h : start < stop) :
    ∃ a, viewSparse bs start stop = .ok a ∧ width a ≤ stop - start ∧
      (width a = stop - start ↔ ∃ b ∈ bs, b.offset < stop ∧ stop ≤ b.stop) ∧
      ∀ i, i < stop - start → sample (a.getD []) i = sumAt bs (start + i) := by
  have hwf := getSlice_wf (M' := M) id start (some stop) 1 (Or.inl rfl) bs hw
  have hat := getSlice_at (M' := M) id start (some stop) 1 (Or.inl rfl) bs
  simp only [Option.map_some, Int.ofNat_eq_natCast, Option.getD_some, Nat.mul_one, id] at hwf hat
  have hnum : ∀ g : List (Block M), g = getSlice id (some (start : Int)) (some (stop : Int)) 1 bs →
      numSamples g ≤ stop - start ∧ (numSamples g = stop - start ↔ ∃ b ∈ bs, b.offset < stop ∧ stop ≤ b.stop) := by
    intro g hg
    have hmem : ∀ c ∈ g, ∃ b ∈ bs, b.offset < stop ∧ start < b.stop ∧ c.stop = min stop b.stop - start := by
      intro c hc
      rw [hg, getSlice, List.mem_filterMap] at hc
      obtain ⟨b, hb, hc⟩ := hc
      exact ⟨b, hb, sliceBlock_stop start stop h b c (by simpa using hc)⟩
    have hle : numSamples g ≤ stop - start ∧ (numSamples g = stop - start → ∃ b ∈ bs, b.offset < stop ∧ stop ≤ b.stop) := by
      unfold numSamples
      cases hl : g.getLast? with
      | none => exact ⟨by simp, fun e => by simp only at e; omega⟩
      | some c =>
        obtain ⟨b, hb, h1, h2, h3⟩ := hmem c (List.mem_of_getLast? hl)
        dsimp only
        rw [h3]
        exact ⟨by omega, fun e => ⟨b, hb, h1, by omega⟩⟩
    refine ⟨hle.1, hle.2, ?_⟩
    rintro ⟨b, hb, h1, h2⟩
    have : ∃ c ∈ g, c.stop = stop - start := by
      have hs : ∃ c, sliceBlock (M' := M) id (start : Int) (stop : Int) 1 b = some c := by
        unfold sliceBlock
        rw [if_neg (by omega)]
        exact ⟨_, rfl⟩
      obtain ⟨c, hc⟩ := hs
      refine ⟨c, ?_, ?_⟩
      · rw [hg, getSlice, List.mem_filterMap]
        exact ⟨b, hb, by simpa using hc⟩
      · rw [(sliceBlock_stop start stop h b c hc).2.2]
        omega
    obtain ⟨c, hc, he⟩ := this
    have := stop_le_numSamples g (by rw [hg]; exact hwf) c hc
    have := hle.1
    omega
  unfold viewSparse
  cases hg : getSlice (M' := M) id (some (start : Int)) (some (stop : Int)) 1 bs with
  | nil =>
    obtain ⟨_, h2⟩ := hnum [] hg.symm
    refine ⟨none, rfl, by simp [width], ?_, ?_⟩
    · rw [← h2]; rfl
    · intro i hi
      have := hat i
      rw [hg, if_pos (by omega)] at this
      rw [show (fun m => sumAt bs (start + i) m) = sumAt bs (start + i) from rfl] at this
      rw [← this]
      simp [sample, sumAt]
  | cons c r =>
    obtain ⟨h1, h2⟩ := hnum _ hg.symm
    rw [hg] at hwf
    obtain ⟨d, hd, hlen, hv⟩ := toDense_spec _ hwf
    refine ⟨some d, by simp only [hd]; rfl, by simpa [width, hlen] using h1, ?_, ?_⟩
    · rw [← h2]; simp [width, hlen]
    · intro i hi
      have := hat i
      rw [hg, if_pos (by omega)] at this
      simp only [Option.getD_some]
      rw [hv i, this]

/-- The value reaches the end of a window. -/
def Value.Reaches : Value K → Nat → Prop
  | .sparse bs, stop => ∃ b ∈ bs, b.offset < stop ∧ stop ≤ b.stop
  | .dense cols, stop => stop ≤ cols.length

theorem view_spec (v : Value K) (hw : WF v.blocks) (start stop : Nat) (h : start < stop) :
    ∃ a, v.view start stop = .ok a ∧ width a ≤ stop - start ∧ (width a = stop - start ↔ v.Reaches stop) ∧
      ∀ i, i < stop - start → sample (a.getD []) i = v.at (start + i) := by
  cases v with
  | sparse bs => exact viewSparse_spec bs hw start stop h
  | dense cols =>
    refine ⟨_, rfl, by simp [width], ?_, ?_⟩
    · simp only [width, List.length_take, List.length_drop, Value.Reaches]
      omega
    · intro i hi
      simp only [Option.getD_some, sample, Value.at]
      rw [List.getElem?_take_of_lt hi, List.getElem?_drop]

/-- One window. -/
theorem window_spec (bs : List (Block M)) (hb : WF bs) (v : Value K) (hv : WF v.blocks) (w : Nat × Nat) (hw : w.1 < w.2) :
    ((Value.sparse bs).Reaches w.2 ∧ v.Reaches w.2 →
      (do let a ← viewSparse bs w.1 w.2; let b ← v.view w.1 w.2; stack w.1 w.2 a b) =
        Except.ok ⟨w.1, (List.range (w.2 - w.1)).map fun i => Fin.append (sumAt bs (w.1 + i)) (v.at (w.1 + i))⟩) ∧
    (¬((Value.sparse bs).Reaches w.2 ∧ v.Reaches w.2) →
      (do let a ← viewSparse bs w.1 w.2; let b ← v.view w.1 w.2; stack w.1 w.2 a b) =
        Except.error PyErr.value ∨
      ((do let a ← viewSparse bs w.1 w.2; let b ← v.view w.1 w.2; stack w.1 w.2 a b) = Except.error PyErr.type ∧
        ¬(Value.sparse bs).Reaches w.2 ∧ ¬v.Reaches w.2)) := by
  obtain ⟨a, a1, a2, a3, a4⟩ := viewSparse_spec bs hb w.1 w.2 hw
  obtain ⟨b, b1, b2, b3, b4⟩ := view_spec v hv w.1 w.2 hw
  simp only [a1, b1, bind, Except.bind]
  have a3' : width a = w.2 - w.1 ↔ (Value.sparse bs).Reaches w.2 := a3
  constructor
  · rintro ⟨h1, h2⟩
    have ha := a3'.mpr h1
    have hb := b3.mpr h2
    unfold stack
    rw [if_neg (by rw [ha, hb]; simp), if_neg (by rw [ha]; simp)]
    congr 2
    have la : (a.getD []).length = w.2 - w.1 := by
      cases a with
      | none => simp only [width] at ha; omega
      | some l => simpa [width] using ha
    have lb : (b.getD []).length = w.2 - w.1 := by
      cases b with
      | none => simp only [width] at hb; omega
      | some l => simpa [width] using hb
    apply List.ext_getElem
    · simp [la, lb]
    · intro i h1 h2
      simp only [List.length_map, List.length_range] at h2
      rw [List.getElem_zipWith, List.getElem_map, List.getElem_range, ← a4 i h2, ← b4 i h2]
      simp [sample, la, lb, h2]
  · intro hn
    unfold stack
    by_cases hne : width a ≠ width b
    · rw [if_pos hne]; exact Or.inl rfl
    · right
      push Not at hne
      have h1 : ¬(Value.sparse bs).Reaches w.2 := fun h => hn ⟨h, b3.mp (hne ▸ a3'.mpr h)⟩
      have h2 : ¬v.Reaches w.2 := fun h => hn ⟨a3'.mp (hne.symm ▸ b3.mpr h), h⟩
      rw [if_neg (by simpa using hne), if_pos (fun e => h1 (a3'.mp e))]
      exact ⟨rfl, h1, h2⟩

/-- All windows. -/
theorem mapM_windows_ok (bs : List (Block M)) (hb : WF bs) (v : Value K) (hv : WF v.blocks) (ws : List (Nat × Nat)) (h1 : ∀ w ∈ ws, w.1 < w.2)
    (hr : ∀ w ∈ ws, (Value.sparse bs).Reaches w.2 ∧ v.Reaches w.2) :
    (ws.mapM fun w => do
      let a ← viewSparse bs w.1 w.2
      let b ← v.view w.1 w.2
      stack w.1 w.2 a b) = Except.ok (showing (fun t => Fin.append (sumAt bs t) (v.at t)) 0 ws) := by
  induction ws with
  | nil => rfl
  | cons w ws ih =>
    rw [List.mapM_cons, (window_spec bs hb v hv w (h1 w (by simp))).1 (hr w (by simp)),
      ih (fun u hu => h1 u (by simp [hu])) (fun u hu => hr u (by simp [hu]))]
    simp [bind, Except.bind, pure, Except.pure, showing]

theorem mapM_windows_error (bs : List (Block M)) (hb : WF bs) (v : Value K) (hv : WF v.blocks) (ws : List (Nat × Nat)) (h1 : ∀ w ∈ ws, w.1 < w.2)
    (ho : ∀ w ∈ ws, (Value.sparse bs).Reaches w.2 ∨ v.Reaches w.2) (hr : ∃ w ∈ ws, ¬((Value.sparse bs).Reaches w.2 ∧ v.Reaches w.2)) :
    (ws.mapM fun w => do
      let a ← viewSparse bs w.1 w.2
      let b ← v.view w.1 w.2
      stack w.1 w.2 a b) = Except.error PyErr.value := by
  induction ws with
  | nil => obtain ⟨w, hw, _⟩ := hr; simp at hw
  | cons w ws ih =>
    rw [List.mapM_cons]
    obtain ⟨s1, s2⟩ := window_spec bs hb v hv w (h1 w (by simp))
    by_cases hw : (Value.sparse bs).Reaches w.2 ∧ v.Reaches w.2
    · rw [s1 hw]
      obtain ⟨u, hu, hur⟩ := hr
      rcases List.mem_cons.mp hu with rfl | hu
      · exact absurd hw hur
      · simp only [bind, Except.bind] at ih ⊢
        rw [ih (fun u hu => h1 u (by simp [hu])) (fun u hu => ho u (by simp [hu])) ⟨u, hu, hur⟩]
    · have : (do let a ← viewSparse bs w.1 w.2; let b ← v.view w.1 w.2; stack w.1 w.2 a b) = Except.error PyErr.value := by
        rcases s2 hw with h | h
        · exact h
        · rcases ho w (by simp) with g | g
          · exact absurd g h.2.1
          · exact absurd g h.2.2
      rw [this]
      rfl

/-! ### Streams -/

/-- Blocks of the sparse form are within the blocks they are taken from. -/
theorem covered_fromDense (b : Block K) (t : Nat) (h : t ∈ covered (fromDense b.cols b.offset)) :
    b.offset ≤ t ∧ t < b.stop ∧ ∑ m, b.at t m ≠ 0 := by
  by_cases hc : b.cols = []
  · rw [hc] at h
    simp [fromDense, covered] at h
  · rw [mem_covered, fromDense_eq _ _ hc] at h
    obtain ⟨c, hc', h1, h2⟩ := h
    obtain ⟨w, hw, rfl⟩ := List.mem_map.mp hc'
    simp only [Block.stop, List.length_map, List.length_range] at h1 h2
    obtain ⟨_, _, s3⟩ := windows_spec _ (nonzeroCols_sorted b.cols)
    have hm := (mem_nonzeroCols b.cols (t - b.offset)).mp ((s3 _).mpr ⟨w, hw, by omega, by omega⟩)
    refine ⟨by omega, by unfold Block.stop; omega, ?_⟩
    unfold Block.at
    rw [if_pos (by omega)]
    exact hm.2

theorem fromDense_covers (b : Block K) (t : Nat) (h1 : b.offset ≤ t) (h2 : t < b.stop) (h3 : ∑ m, b.at t m ≠ 0) :
    t ∈ covered (fromDense b.cols b.offset) := by
  have hc : b.cols ≠ [] := by
    intro hc
    unfold Block.stop at h2
    rw [hc] at h2
    simp at h2
    omega
  rw [mem_covered, fromDense_eq _ _ hc]
  obtain ⟨_, _, s3⟩ := windows_spec _ (nonzeroCols_sorted b.cols)
  have hm : t - b.offset ∈ nonzeroCols b.cols := by
    rw [mem_nonzeroCols]
    refine ⟨by unfold Block.stop at h2; omega, ?_⟩
    unfold Block.at at h3
    rw [if_pos h1] at h3
    exact h3
  obtain ⟨w, hw, w1, w2⟩ := (s3 _).mp hm
  refine ⟨_, List.mem_map.mpr ⟨w, hw, rfl⟩, ?_, ?_⟩
  · dsimp only; omega
  · simp only [Block.stop, List.length_map, List.length_range]; omega

theorem covered_flatMap (l : List (Block K)) (t : Nat) :
    t ∈ covered (l.flatMap fun b => fromDense b.cols b.offset) ↔ ∃ b ∈ l, t ∈ covered (fromDense b.cols b.offset) := by
  simp only [mem_covered, List.mem_flatMap]
  constructor
  · rintro ⟨c, ⟨b, hb, hc⟩, h⟩; exact ⟨b, hb, c, hc, h⟩
  · rintro ⟨b, hb, c, hc, h⟩; exact ⟨c, ⟨b, hb, hc⟩, h⟩

/-- Wherever a block of a list in order is, the list shows it. -/
theorem sumAt_block (bs : List (Block K)) (h : WF bs) (b : Block K) (hb : b ∈ bs) (t : Nat) (h1 : b.offset ≤ t) (h2 : t < b.stop) :
    sumAt bs t = b.at t := by
  obtain ⟨l, r, rfl⟩ := List.append_of_mem hb
  have hp := List.pairwise_append.mp h
  have hp2 := List.pairwise_cons.mp hp.2.1
  have e1 : sumAt l t = 0 := sumAt_eq_zero l t fun a ha => Or.inr (by
    have := hp.2.2 a ha b (by simp)
    omega)
  have e2 : sumAt r t = 0 := sumAt_eq_zero r t fun a ha => Or.inl (by
    have := hp2.1 a ha
    omega)
  unfold sumAt at *
  rw [List.map_append, List.map_cons, List.sum_append, List.sum_cons, e1, e2]
  simp

theorem value_at_block (v : Value K) (h : WF v.blocks) (b : Block K) (hb : b ∈ v.blocks) (t : Nat) (h1 : b.offset ≤ t) (h2 : t < b.stop) :
    v.at t = b.at t := by
  cases v with
  | sparse bs => exact sumAt_block bs h b hb t h1 h2
  | dense cols =>
    simp only [Value.blocks, List.mem_singleton] at hb
    subst hb
    simp [Value.at, sample, Block.at]

theorem value_at_zero (v : Value K) (t : Nat) (h : ∀ b ∈ v.blocks, t < b.offset ∨ b.stop ≤ t) : v.at t = 0 := by
  cases v with
  | sparse bs => exact sumAt_eq_zero bs t h
  | dense cols =>
    have := h ⟨0, cols⟩ (by simp [Value.blocks])
    simp only [Block.stop] at this
    exact sample_ge cols t (by omega)

theorem reaches_iff (v : Value K) (stop : Nat) (h : 0 < stop) : v.Reaches stop ↔ ∃ b ∈ v.blocks, b.offset < stop ∧ stop ≤ b.stop := by
  cases v with
  | sparse bs => exact Iff.rfl
  | dense cols =>
    simp only [Value.Reaches, Value.blocks, List.mem_singleton, exists_eq_left, Block.stop]
    omega

/-- **Appending streams**, in general: what the resulting signal shows where it is not zero are the streams of this signal on top of the streams of the other,
taken from the other without regard to its sampling rate, if both have samples at the end of every block of the result. -/
theorem streams_general (resample : Block K → Except PyErr (Block K)) (bs : List (Block M)) (hb : WF bs) (v : Value K) (hv : WF v.blocks)
    (r : List (Block K)) (hr : v.blocks.mapM resample = .ok r)
    (hreach : ∀ w ∈ windows (union1d (covered bs) (covered (r.flatMap fun b => fromDense b.cols b.offset))),
      (Value.sparse bs).Reaches w.2 ∧ v.Reaches w.2) :
    ∃ out, appendStreams resample bs v = .ok out ∧ Separated out ∧
      ∀ t, sumAt out t = if t ∈ covered bs ∨ (∃ b ∈ r, t ∈ covered (fromDense b.cols b.offset)) then Fin.append (sumAt bs t) (v.at t) else 0 := by
  obtain ⟨h1, h2, h3⟩ := windows_spec _ (union1d_sorted (covered bs) (covered (r.flatMap fun b => fromDense b.cols b.offset)))
  refine ⟨showing (fun t => Fin.append (sumAt bs t) (v.at t)) 0 _, ?_, showing_separated _ 0 _ h1 h2, ?_⟩
  · unfold appendStreams
    rw [hr]
    exact mapM_windows_ok bs hb v hv _ h1 hreach
  · intro t
    rw [showing_at _ 0 _ h1 h2 t (Nat.zero_le _)]
    simp only [Nat.sub_zero]
    congr 1
    apply propext
    rw [← h3, mem_union1d, covered_flatMap]

/-- **Appending streams.**  If both signals have the same sampling rate, every block of the result ends with a sample of both, and no column of the appended
signal sums up to zero unless it is zero, the result shows the streams of this signal followed by those of the other, in blocks neither overlapping nor touching.
Missing: signals that do not end together, of different rates, or whose streams cancel each other, see below. -/
theorem C140_streams_partial (bs : List (Block M)) (hb : WF bs) (v : Value K) (hv : WF v.blocks)
    (hreach : ∀ t, (t ∈ covered bs ∨ ∑ m, v.at t m ≠ 0) → (t + 1 ∈ covered bs ∨ ∑ m, v.at (t + 1) m ≠ 0) ∨ (t ∈ covered bs ∧ ∃ b ∈ v.blocks, b.offset ≤ t ∧ t < b.stop))
    (hc : ∀ t, v.at t ≠ 0 → ∑ m, v.at t m ≠ 0) :
    ∃ out, appendStreams .ok bs v = .ok out ∧ Separated out ∧ ∀ t, sumAt out t = Fin.append (sumAt bs t) (v.at t) := by
  have hmap : v.blocks.mapM (Except.ok : Block K → Except PyErr (Block K)) = .ok v.blocks := by
    generalize v.blocks = l
    induction l with
    | nil => rfl
    | cons b l ih => rw [List.mapM_cons, ih]; rfl
  have hcov : ∀ t, (∃ b ∈ v.blocks, t ∈ covered (fromDense b.cols b.offset)) ↔ ∑ m, v.at t m ≠ 0 := by
    intro t
    constructor
    · rintro ⟨b, hbm, h⟩
      obtain ⟨h1, h2, h3⟩ := covered_fromDense b t h
      rw [value_at_block v hv b hbm t h1 h2]
      exact h3
    · intro h
      by_contra hn
      push Not at hn
      apply h
      by_cases hz : ∃ b ∈ v.blocks, b.offset ≤ t ∧ t < b.stop
      · obtain ⟨b, hbm, h1, h2⟩ := hz
        rw [value_at_block v hv b hbm t h1 h2]
        by_contra h3
        exact hn b hbm (fromDense_covers b t h1 h2 h3)
      · push Not at hz
        rw [value_at_zero v t (fun b hbm => by
          by_cases h1 : b.offset ≤ t
          · exact Or.inr (hz b hbm h1)
          · exact Or.inl (by omega))]
        simp
  obtain ⟨h1, h2, h3⟩ := windows_spec _ (union1d_sorted (covered bs) (covered (v.blocks.flatMap fun b => fromDense b.cols b.offset)))
  have hin : ∀ t, t ∈ union1d (covered bs) (covered (v.blocks.flatMap fun b => fromDense b.cols b.offset)) ↔ t ∈ covered bs ∨ ∑ m, v.at t m ≠ 0 := by
    intro t
    rw [mem_union1d, covered_flatMap, hcov]
  obtain ⟨out, ho, hs, hat⟩ := streams_general .ok bs hb v hv v.blocks hmap (by
    intro w hw
    have hlt := h1 w hw
    have hlast := (hin (w.2 - 1)).mp ((h3 _).mpr ⟨w, hw, by omega, by omega⟩)
    have hnot : ¬(w.2 - 1 + 1 ∈ covered bs ∨ ∑ m, v.at (w.2 - 1 + 1) m ≠ 0) := by
      intro h
      obtain ⟨u, hu, u1, u2⟩ := (h3 _).mp ((hin _).mpr h)
      have hne : u ≠ w := by rintro rfl; omega
      rcases pairwise_or h2 hu hw hne with hlt' | hlt'
      · have := h1 u hu; omega
      · omega
    obtain ⟨g1, b, hbm, g2, g3⟩ := (hreach _ hlast).resolve_left hnot
    rw [mem_covered] at g1
    obtain ⟨a, ha, a1, a2⟩ := g1
    refine ⟨⟨a, ha, by omega, by omega⟩, (reaches_iff v w.2 (by omega)).mpr ⟨b, hbm, by omega, by omega⟩⟩)
  refine ⟨out, ho, hs, ?_⟩
  intro t
  rw [hat t]
  by_cases h : t ∈ covered bs ∨ ∃ b ∈ v.blocks, t ∈ covered (fromDense b.cols b.offset)
  · rw [if_pos h]
  · rw [if_neg h]
    push Not at h
    have e1 : sumAt bs t = 0 := sumAt_eq_zero bs t fun b hbm => by
      by_contra hn
      push Not at hn
      exact h.1 ((mem_covered bs t).mpr ⟨b, hbm, hn.1, hn.2⟩)
    have e2 : v.at t = 0 := by
      by_contra hn
      obtain ⟨b, hbm, hh⟩ := (hcov t).mpr (hc t hn)
      exact h.2 b hbm hh
    rw [e1, e2]
    funext m
    refine Fin.addCases (fun i => ?_) (fun i => ?_) m <;> simp
where
  pairwise_or {ws : List (Nat × Nat)} (h : ws.Pairwise fun a b => a.2 < b.1) {u w : Nat × Nat} (hu : u ∈ ws) (hw : w ∈ ws) (hne : u ≠ w) :
      u.2 < w.1 ∨ w.2 < u.1 := by
    induction ws with
    | nil => simp at hu
    | cons x ws ih =>
      have hp := List.pairwise_cons.mp h
      rcases List.mem_cons.mp hu with e1 | hu'
      · rcases List.mem_cons.mp hw with e2 | hw'
        · exact absurd (e1.trans e2.symm) hne
        · rw [e1]; exact Or.inl (hp.1 w hw')
      · rcases List.mem_cons.mp hw with e2 | hw'
        · rw [e2]; exact Or.inr (hp.1 u hu')
        · exact ih hp.2 hu' hw'

/-- Without gaps the hypotheses are met if both signals end together: dense signals can be appended to sparse signals of a single block. -/
theorem C140_dense (c : List (Col M)) (d : List (Col K)) (hl : c.length = d.length) (hc : ∀ t, sample d t ≠ 0 → ∑ m, sample d t m ≠ 0) :
    ∃ out, appendStreams .ok [⟨0, c⟩] (.dense d) = .ok out ∧ Separated out ∧ ∀ t, sumAt out t = Fin.append (sample c t) (sample d t) := by
  obtain ⟨out, h1, h2, h3⟩ := C140_streams_partial [⟨0, c⟩] (by simp [WF]) (.dense d) (by simp [WF, Value.blocks]) (by
    intro t ht
    right
    have hlt : t < c.length := by
      rcases ht with h | h
      · rw [mem_covered] at h
        simpa [Block.stop] using h
      · by_contra hn
        apply h
        simp [Value.at, sample_ge d t (by omega)]
    refine ⟨(mem_covered _ _).mpr ⟨⟨0, c⟩, by simp, by simp, by simpa [Block.stop] using hlt⟩, ⟨0, d⟩, by simp [Value.blocks], by simp, ?_⟩
    simp [Block.stop]; omega) hc
  refine ⟨out, h1, h2, ?_⟩
  intro t
  rw [h3 t]
  congr 1
  simp [sumAt, Block.at, sample]

/-- Where only one of the signals has samples behind the end of the other, stacking is refused. -/
theorem ends_error (bs : List (Block M)) (hb : WF bs) (v : Value K) (hv : WF v.blocks) (t : Nat) (hin : t ∈ covered bs ∨ ∑ m, v.at t m ≠ 0)
    (hend : (∀ b ∈ bs, b.stop ≤ t) ∨ ∀ b ∈ v.blocks, b.stop ≤ t) : appendStreams .ok bs v = .error .value := by
  have hmap : v.blocks.mapM (Except.ok : Block K → Except PyErr (Block K)) = .ok v.blocks := by
    generalize v.blocks = l
    induction l with
    | nil => rfl
    | cons b l ih => rw [List.mapM_cons, ih]; rfl
  obtain ⟨h1, h2, h3⟩ := windows_spec _ (union1d_sorted (covered bs) (covered (v.blocks.flatMap fun b => fromDense b.cols b.offset)))
  unfold appendStreams
  rw [hmap]
  have hmem : t ∈ union1d (covered bs) (covered (v.blocks.flatMap fun b => fromDense b.cols b.offset)) := by
    rw [mem_union1d, covered_flatMap]
    rcases hin with h | h
    · exact Or.inl h
    · right
      by_contra hn
      push Not at hn
      apply h
      by_cases hz : ∃ b ∈ v.blocks, b.offset ≤ t ∧ t < b.stop
      · obtain ⟨b, hbm, g1, g2⟩ := hz
        rw [value_at_block v hv b hbm t g1 g2]
        by_contra g3
        exact hn b hbm (fromDense_covers b t g1 g2 g3)
      · push Not at hz
        rw [value_at_zero v t (fun b hbm => by
          by_cases h1 : b.offset ≤ t
          · exact Or.inr (hz b hbm h1)
          · exact Or.inl (by omega))]
        simp
  obtain ⟨w, hw, w1, w2⟩ := (h3 t).mp hmem
  refine mapM_windows_error bs hb v hv _ h1 ?_ ⟨w, hw, ?_⟩
  · intro u hu
    have hlt := h1 u hu
    have hl := (h3 (u.2 - 1)).mpr ⟨u, hu, by omega, by omega⟩
    rw [mem_union1d, covered_flatMap] at hl
    rcases hl with hl | ⟨b, hbm, hl⟩
    · left
      rw [mem_covered] at hl
      obtain ⟨b, hbm, g1, g2⟩ := hl
      exact ⟨b, hbm, by omega, by omega⟩
    · right
      obtain ⟨g1, g2, _⟩ := covered_fromDense b _ hl
      exact (reaches_iff v u.2 (by omega)).mpr ⟨b, hbm, by omega, by omega⟩
  · rintro ⟨⟨b, hbm, g1, g2⟩, hvr⟩
    rcases hend with h | h
    · have := h b hbm; omega
    · obtain ⟨c, hcm, g3, g4⟩ := (reaches_iff v w.2 (by omega)).mp hvr
      have := h c hcm; omega

/-- **Signals of different ends cannot be stacked.**  Appending streams with a column of non-zero sum behind the end of this signal raises a `ValueError`. -/
theorem C140_longer_fails (bs : List (Block M)) (hb : WF bs) (v : Value K) (hv : WF v.blocks) (t : Nat) (ht : numSamples bs ≤ t)
    (hs : ∑ m, v.at t m ≠ 0) : appendStreams .ok bs v = .error .value := by
  have := ends_error bs hb v hv t
    (Or.inr hs) (Or.inl fun b hbm => (stop_le_numSamples bs hb b hbm).trans ht)
  exact this

/-- … and so does appending streams which end before this signal. -/
theorem C140_shorter_fails (bs : List (Block M)) (hb : WF bs) (v : Value K) (hv : WF v.blocks) (t : Nat) (ht : t ∈ covered bs)
    (hs : ∀ b ∈ v.blocks, b.stop ≤ t) : appendStreams .ok bs v = .error .value :=
  ends_error bs hb v hv t (Or.inl ht) (Or.inr hs)

/-- **Appended streams are not resampled.**  Whatever resampling makes of the blocks of the appended signal, the result shows its samples as they are: between
signals of different sampling rates the appended streams are stretched in time. -/
theorem C140_rate_fails (resample : Block K → Except PyErr (Block K)) (bs : List (Block M)) (hb : WF bs) (v : Value K) (hv : WF v.blocks)
    (out : List (Block (M + K))) (ho : appendStreams resample bs v = .ok out) (t : Nat) (ht : t ∈ covered bs) (m : Fin K) :
    sumAt out t (Fin.natAdd M m) = v.at t m := by
  cases hr : v.blocks.mapM resample with
  | error e =>
    unfold appendStreams at ho
    rw [hr] at ho
    simp [bind, Except.bind] at ho
  | ok r =>
    obtain ⟨h1, _, _⟩ := windows_spec _ (union1d_sorted (covered bs) (covered (r.flatMap fun b => fromDense b.cols b.offset)))
    have hreach : ∀ w ∈ windows (union1d (covered bs) (covered (r.flatMap fun b => fromDense b.cols b.offset))),
        (Value.sparse bs).Reaches w.2 ∧ v.Reaches w.2 := by
      unfold appendStreams at ho
      rw [hr] at ho
      simp only [bind, Except.bind] at ho
      exact all_reach bs hb v hv _ h1 out ho
    obtain ⟨out', ho', _, hat⟩ := streams_general resample bs hb v hv r hr hreach
    rw [ho] at ho'
    simp only [Except.ok.injEq] at ho'
    subst ho'
    rw [hat t, if_pos (Or.inl ht), Fin.append_right]
where
  all_reach (bs : List (Block M)) (hb : WF bs) (v : Value K) (hv : WF v.blocks) (ws : List (Nat × Nat)) (h1 : ∀ w ∈ ws, w.1 < w.2)
      (out : List (Block (M + K)))
      (h : (ws.mapM fun w => do
        let a ← viewSparse bs w.1 w.2
        let b ← v.view w.1 w.2
        stack w.1 w.2 a b) = Except.ok out) : ∀ w ∈ ws, (Value.sparse bs).Reaches w.2 ∧ v.Reaches w.2 := by
    induction ws generalizing out with
    | nil => simp
    | cons w ws ih =>
      rw [List.mapM_cons] at h
      have hw : (Value.sparse bs).Reaches w.2 ∧ v.Reaches w.2 := by
        by_contra hn
        rcases (window_spec bs hb v hv w (h1 w (by simp))).2 hn with e | ⟨e, _⟩ <;> rw [e] at h <;> simp [bind, Except.bind] at h
      rw [(window_spec bs hb v hv w (h1 w (by simp))).1 hw] at h
      cases hrest : (ws.mapM fun w => do
        let a ← viewSparse bs w.1 w.2
        let b ← v.view w.1 w.2
        stack w.1 w.2 a b) with
      | error e =>
        simp only [bind, Except.bind] at h hrest
        rw [hrest] at h
        simp at h
      | ok o =>
        intro u hu
        rcases List.mem_cons.mp hu with rfl | hu
        · exact hw
        · exact ih (fun u hu => h1 u (by simp [hu])) o hrest u hu

/-! ### Samples -/

theorem numSamples_append (a b : List (Block M)) (hb : b ≠ []) : numSamples (a ++ b) = numSamples b := by
  unfold numSamples
  rw [List.getLast?_append]
  cases h : b.getLast? with
  | none => exact absurd (List.getLast?_eq_none_iff.mp h) hb
  | some c => rfl

/-- **Appending samples.**  Between signals of equal sampling rate, neither of which is empty, the result shows this signal and then the other one. -/
theorem C140_samples_partial (bs : List (Block M)) (hb : WF bs) (hne : bs ≠ []) (v : Value M) (hv : WF v.blocks) (hvne : v.blocks ≠ []) :
    ∃ out, appendSamples .ok bs v = .ok out ∧ WF out ∧ numSamples out = numSamples bs + numSamples v.blocks ∧
      ∀ t, sumAt out t = if t < numSamples bs then sumAt bs t else v.at (t - numSamples bs) := by
  have hmap : v.blocks.mapM (Except.ok : Block M → Except PyErr (Block M)) = .ok v.blocks := by
    generalize v.blocks = l
    induction l with
    | nil => rfl
    | cons b l ih => rw [List.mapM_cons, ih]; rfl
  have hst : (Value.sparse bs).streams = v.streams := by
    have h1 : (Value.sparse bs).streams = M := by
      cases bs with
      | nil => exact absurd rfl hne
      | cons => rfl
    have h2 : v.streams = M := by
      cases v with
      | dense => rfl
      | sparse l =>
        cases l with
        | nil => exact absurd rfl hvne
        | cons => rfl
    rw [h1, h2]
  refine ⟨bs ++ v.blocks.map fun b => { b with offset := b.offset + numSamples bs }, ?_, ?_, ?_, ?_⟩
  · unfold appendSamples
    rw [if_neg (by simpa using hst), hmap]
    rfl
  · unfold WF
    rw [List.pairwise_append]
    refine ⟨hb, shift_wf v.blocks (numSamples bs) hv, ?_⟩
    intro a ha c hc
    obtain ⟨b, _, rfl⟩ := List.mem_map.mp hc
    have := stop_le_numSamples bs hb a ha
    dsimp only
    omega
  · rw [numSamples_append _ _ (by simpa using hvne)]
    unfold numSamples
    rw [List.getLast?_map]
    cases h : v.blocks.getLast? with
    | none => exact absurd (List.getLast?_eq_none_iff.mp h) hvne
    | some c =>
      simp only [Option.map_some, Block.stop]
      omega
  · intro t
    have happ : sumAt (bs ++ v.blocks.map fun b => { b with offset := b.offset + numSamples bs }) t =
        sumAt bs t + sumAt (v.blocks.map fun b => { b with offset := b.offset + numSamples bs }) t := by
      simp [sumAt]
    rw [happ, shift_at v.blocks (numSamples bs) t]
    have hval : ∀ t, v.at t = sumAt v.blocks t := by
      intro t
      cases v with
      | sparse l => rfl
      | dense cols => simp [Value.at, Value.blocks, sumAt, Block.at, sample]
    by_cases h : t < numSamples bs
    · rw [if_pos h, if_neg (by omega)]; simp
    · rw [if_neg h, if_pos (by omega), hval, sumAt_eq_zero bs t fun b hbm => Or.inr (by
        have := stop_le_numSamples bs hb b hbm
        omega)]
      simp

/-- Arrays with the same samples. -/
theorem ext_sample (a b : List (Col M)) (hl : a.length = b.length) (h : ∀ t, sample a t = sample b t) : a = b := by
  apply List.ext_getElem hl
  intro i h1 h2
  have := h i
  simpa [sample, List.getElem?_eq_getElem h1, List.getElem?_eq_getElem h2] using this

/-- **Histories.**  Appending any number of matrices, one after another, and converting the result to a dense signal is the same as converting first and
appending the matrices to the array. -/
theorem C140_history (vs : List (List (Col M))) : ∀ (bs : List (Block M)) (_ : WF bs) (_ : bs ≠ []) (d : List (Col M)), toDense bs = .ok d →
    ∃ out, vs.foldlM (fun b v => appendSamples .ok b (.dense v)) bs = .ok out ∧ WF out ∧ toDense out = .ok (d ++ vs.flatten) := by
  induction vs with
  | nil => intro bs hb _ d hd; exact ⟨bs, rfl, hb, by simpa using hd⟩
  | cons v vs ih =>
    intro bs hb hne d hd
    obtain ⟨out, h1, h2, h3, h4⟩ := C140_samples_partial bs hb hne (.dense v) (by simp [WF, Value.blocks]) (by simp [Value.blocks])
    obtain ⟨d0, e1, e2, e3⟩ := toDense_spec bs hb
    rw [hd] at e1
    simp only [Except.ok.injEq] at e1
    subst e1
    obtain ⟨d1, f1, f2, f3⟩ := toDense_spec out h2
    have hv : numSamples (Value.dense v).blocks = v.length := by simp [numSamples, Value.blocks, Block.stop]
    have hd1 : d1 = d ++ v := by
      apply ext_sample
      · rw [f2, h3, hv, List.length_append, e2]
      · intro t
        rw [f3, h4, ← e2]
        by_cases h : t < d.length
        · rw [if_pos h, ← e3]
          simp [sample, List.getElem?_append_left h]
        · rw [if_neg h]
          simp [sample, Value.at, List.getElem?_append_right (by omega : d.length ≤ t)]
    have hne' : out ≠ [] := by
      rintro rfl
      unfold appendSamples at h1
      split at h1
      · simp at h1
      · simp only [Value.blocks, List.mapM_cons, List.mapM_nil, bind, Except.bind, pure, Except.pure, Except.ok.injEq] at h1
        simp at h1
    obtain ⟨o, g1, g2, g3⟩ := ih out h2 hne' d1 f1
    refine ⟨o, ?_, g2, ?_⟩
    · rw [List.foldlM_cons, h1]
      exact g1
    · rw [g3, hd1]
      simp

/-- **Nothing can be appended to empty sparse signals,** which have no streams, but other empty signals. -/
theorem C140_empty_fails (resample : Block M → Except PyErr (Block M)) (hM : 0 < M) (v : Value M) (hv : v.blocks ≠ []) :
    appendSamples resample [] v = .error .value := by
  unfold appendSamples
  rw [if_pos]
  cases v with
  | dense => simp only [Value.streams]; omega
  | sparse l =>
    cases l with
    | nil => exact absurd rfl hv
    | cons => simp only [Value.streams]; omega

/-- Non-vacuity: a stream is appended to a signal of two blocks, the second of which only it has a counterpart for at its end … -/
example : ∃ out, appendStreams (M := 1) (K := 1) .ok [⟨0, [![1]]⟩, ⟨2, [![2], ![3]]⟩] (.sparse [⟨0, [![4]]⟩, ⟨3, [![5]]⟩]) = .ok out ∧
    ∀ t, sumAt out t = Fin.append (sumAt [⟨0, [![1]]⟩, ⟨2, [![2], ![3]]⟩] t) (sumAt [⟨0, [![4]]⟩, ⟨3, [![5]]⟩] t) := by
  obtain ⟨out, h1, _, h2⟩ := C140_streams_partial (M := 1) (K := 1) [⟨0, [![1]]⟩, ⟨2, [![2], ![3]]⟩] (by simp [WF, Block.stop])
    (.sparse [⟨0, [![4]]⟩, ⟨3, [![5]]⟩]) (by simp [WF, Block.stop, Value.blocks]) (by
      intro t ht
      have hc : ∀ t, t ∈ covered ([⟨0, [![1]]⟩, ⟨2, [![2], ![3]]⟩] : List (Block 1)) ↔ t = 0 ∨ t = 2 ∨ t = 3 := by
        intro t; rw [mem_covered]; simp [Block.stop]; omega
      have hv : ∑ m, (Value.sparse ([⟨0, [![4]]⟩, ⟨3, [![5]]⟩] : List (Block 1))).at t m ≠ 0 → t = 0 ∨ t = 3 := by
        intro h
        by_contra hn
        apply h
        rw [value_at_zero _ t (by simp [Value.blocks, Block.stop]; omega)]
        simp
      rw [hc] at ht ⊢
      rw [hc]
      have : t = 0 ∨ t = 2 ∨ t = 3 := by rcases ht with h | h; exact h; rcases hv h with h | h <;> omega
      rcases this with rfl | rfl | rfl
      · right; exact ⟨by simp, ⟨0, [![4]]⟩, by simp [Value.blocks], by simp, by simp [Block.stop]⟩
      · left; left; simp
      · right; exact ⟨by simp, ⟨3, [![5]]⟩, by simp [Value.blocks], by simp, by simp [Block.stop]⟩)
    (by
      intro t h hs
      apply h
      funext m
      rw [Fin.sum_univ_one] at hs
      rw [Subsingleton.elim m 0, hs]
      rfl)
  exact ⟨out, h1, h2⟩

/-- … and refused if it ends earlier or later. -/
example : appendStreams (M := 1) (K := 1) .ok [⟨0, [![1]]⟩] (.dense [![4], ![5]]) = .error .value ∧
    appendStreams (M := 1) (K := 1) .ok [⟨0, [![1], ![2]]⟩] (.dense [![4]]) = .error .value ∧
    appendSamples (M := 1) .ok [] (.dense [![4]]) = .error .value := by
  refine ⟨?_, ?_, ?_⟩
  · exact C140_longer_fails [⟨0, [![1]]⟩] (by simp [WF]) (.dense [![4], ![5]]) (by simp [WF, Value.blocks]) 1 (by simp [numSamples, Block.stop])
      (by simp [Value.at, sample])
  · exact C140_shorter_fails [⟨0, [![1], ![2]]⟩] (by simp [WF]) (.dense [![4]]) (by simp [WF, Value.blocks]) 1
      ((mem_covered _ _).mpr ⟨_, List.mem_singleton_self _, by simp, by simp [Block.stop]⟩) (by simp [Value.blocks, Block.stop])
  · exact C140_empty_fails .ok (by norm_num) _ (by simp [Value.blocks])

example : ∃ out, [[![4]], [![5], ![6]]].foldlM (fun b v => appendSamples (M := 1) .ok b (.dense v)) [⟨1, [![1]]⟩] = .ok out ∧
    toDense out = .ok [0, ![1], ![4], ![5], ![6]] := by
  obtain ⟨out, h1, _, h2⟩ := C140_history [[![4]], [![5], ![6]]] [⟨1, [![1]]⟩] (by simp [WF]) (by simp) [0, ![1]]
    (by simp [toDense, assignAll, assign, numSamples, Block.stop, bind, Except.bind])
  exact ⟨out, h1, by simpa using h2⟩

end Verif.SparseAppend
