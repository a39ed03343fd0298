import Verif.Signal.Sparse
import Verif.Mc.Scalar
import Mathlib.Analysis.Complex.Basic
import Mathlib.Order.Bounds.Basic
import Mathlib.Tactic.FieldSimp
import Mathlib.Tactic.Positivity
import Mathlib.Tactic.NormNum
import Mathlib.Tactic.FinCases

/-!
# C102: power evaluators

Model of the power, peak-to-average power, self-interference and signal to interference plus noise evaluators in
`core/evaluators.py` and `simulation/evaluators/interference.py`, and of the powers of signal models in
`core/signal_model.py`.  Samples are exact complex numbers; `none` stands for values that are not numbers.
-/

namespace Verif.Power

open Verif.Signal Verif.Mc

variable {M : ℕ}

noncomputable section

/-! ### Powers of signal models -/

/-- Squared magnitudes of one stream. -/
def squares (cols : List (Col M)) (m : Fin M) : List ℝ := cols.map fun c => Complex.normSq (c m)

/-- `SignalBlock.energy`, `core/signal_model.py` 494-501. -/
def blockEnergy (cols : List (Col M)) (m : Fin M) : ℝ := (squares cols m).sum

/-- `SignalBlock.power`, `core/signal_model.py` 485-492: no number for blocks without samples. -/
def blockPower (cols : List (Col M)) : Option (Fin M → ℝ) :=
  if cols = [] then none else some fun m => blockEnergy cols m / cols.length

/-- Signal models are dense (`core/signal_model.py` 1187-1220) or sparse. -/
inductive Sig (M : ℕ) where
  | dense (cols : List (Col M))
  | sparse (blocks : List (Block M))

/-- All numbers of a list, if there are only numbers in it. -/
def numbers : List (Option (Fin M → ℝ)) → Option (List (Fin M → ℝ))
  | [] => some []
  | none :: _ => none
  | some p :: l => (numbers l).map (p :: ·)

/-- `power` of dense signals, which are blocks, and `SparseSignal.power`, `core/signal_model.py` 1720-1723: the mean of
the powers of the blocks, which is no number for an empty list. -/
def Sig.power : Sig M → Option (Fin M → ℝ)
  | .dense cols => blockPower cols
  | .sparse bs =>
    match numbers (bs.map fun b => blockPower b.cols) with
    | none => none
    | some [] => none
    | some ps => some fun m => (ps.map (· m)).sum / ps.length

/-- `SparseSignal.energy`, `core/signal_model.py` 1715-1718: summed over blocks and streams; `SignalBlock.energy` of
dense signals is one number for each stream. -/
def sparseEnergy (bs : List (Block M)) : ℝ := (bs.map fun b => ∑ m, blockEnergy b.cols m).sum

/-- `to_dense`, the identity for dense signals. -/
def Sig.cols : Sig M → Except PyErr (List (Col M))
  | .dense cols => .ok cols
  | .sparse bs => toDense bs

/-! ### Callbacks -/

/-- An attribute of an evaluator: declared without a value, `None`, or what was last passed to the callback. -/
inductive Slot (α : Type) where
  | unset
  | empty
  | held (x : α)

/-- Something transmitted or received by node `target`; `Receiver.receive` and `Transmitter.transmit` notify if told to
(`core/device.py` 699-701, 978-980), simulated devices always do (`simulation/simulated_device.py` 1704-1706,
2023-2025). -/
structure Note (α : Type) where
  target : ℕ
  notify : Bool
  value : α

/-- The attribute after a history, set by the callback registered at node `k`. -/
def fetch {α : Type} (k : ℕ) (s : Slot α) (h : List (Note α)) : Slot α :=
  h.foldl (fun s n => if n.target = k ∧ n.notify = true then .held n.value else s) s

/-- Reading an attribute and checking it for `None`: attributes never assigned raise `AttributeError`. -/
def Slot.get {α : Type} : Slot α → Except PyErr α
  | .unset => .error .attribute
  | .empty => .error .runtime
  | .held x => .ok x

/-! ### Evaluators -/

/-- `ReceivePowerEvaluator.evaluate`, `core/evaluators.py` 178-186, and `TransmitPowerEvaluator.evaluate`,
244-251, with the attribute initialized to `None` (lines 170 and 236). -/
def powerEvaluate (k : ℕ) (h : List (Note (Sig M))) : Except PyErr (Option (Fin M → ℝ)) := do
  let s ← (fetch k .empty h).get
  return s.power

/-- `PowerArtifact.to_scalar`, `core/evaluators.py` 78-80. -/
def toScalar (p : Fin M → ℝ) : ℝ := ∑ m, p m

/-- Directions of antennas. -/
inductive Mode where
  | tx
  | rx
  | duplex

/-- `np.max` of a list of non-negative numbers. -/
def peak (l : List ℝ) : ℝ := l.foldr max 0

open Classical in
/-- `PAPREvaluation.artifact` and `PAPRArtifact.__init__`, `core/evaluators.py` 272-283, 319-326, of the squared
magnitudes at lines 461-462: maxima of nothing are an error; a stream without power is no number. -/
def papr (cols : List (Col M)) : Except PyErr (Option ℝ) :=
  if cols = [] then .error .value
  else if M = 0 ∨ ∃ m : Fin M, (squares cols m).sum / cols.length = 0 then .ok none
  else .ok (some ((∑ m : Fin M, peak (squares cols m) / ((squares cols m).sum / cols.length)) / M))

/-- `PAPR.__init__` and `PAPR.evaluate` with its artifact, `core/evaluators.py` 395-416, 439-464, for a device `k`, the
mixed signals of outputs and the impinging signals of inputs: neither attribute is initialized. -/
def paprEvaluate (k : ℕ) (d : Mode) (outs : List (Note (Sig M))) (ins : List (Note (List (Sig M)))) :
    Except PyErr (Option ℝ) :=
  match d with
  | .tx => do
    let s ← (fetch k .unset outs).get
    papr (← s.cols)
  | .rx => do
    match (← (fetch k .unset ins).get) with
    | [] => .error .index
    | s :: _ => papr (← s.cols)
  | .duplex => .error .value

/-- What evaluators read of `ProcessedSimulatedDeviceInput`, `simulation/simulated_device.py` 763-848. All signals have
one stream for each receive antenna. -/
structure Input (M : ℕ) where
  impinging : List (Sig M)
  leaking : Option (Sig M)
  noise : ℝ

/-- `SI.evaluate`, `simulation/evaluators/interference.py` 81-88, with `_input` declared at line 34 and first assigned by
the callback at line 69. Without leakage, `None` has no power. -/
def siEvaluate (k : ℕ) (h : List (Note (Input M))) : Except PyErr (Option (Fin M → ℝ)) := do
  let i ← (fetch k .unset h).get
  match i.leaking with
  | none => .error .attribute
  | some s => .ok s.power

open Classical in
/-- `SSINR.evaluate`, `simulation/evaluators/interference.py` 117-139. Division by zero in one stream leaves no scalar
and is represented by `none` as a whole. -/
def ssinrEvaluate (k : ℕ) (h : List (Note (Input M))) : Except PyErr (Option (Fin M → ℝ)) := do
  let i ← (fetch k .unset h).get
  match i.leaking with
  | none => .error .attribute
  | some s =>
    if i.impinging = [] then .error .index
    else
      match s.power, numbers (i.impinging.map Sig.power) with
      | some si, some ps =>
        if ∃ m, si m + i.noise = 0 then .ok none
        else .ok (some fun m => (ps.map (· m)).sum / (si m + i.noise))
      | _, _ => .ok none

/-- The confidence and plotting settings of `ScalarEvaluator`, `core/pymonte/scalar.py` 258-284. -/
structure Settings where
  tolerance : ℝ
  confidence : ℝ
  minSamples : ℕ
  plotSurface : Bool

/-- `ScalarEvaluator.initialize_result`, `core/pymonte/scalar.py` 286-290; the flag is kept beside the result. -/
def Settings.result (e : Settings) (cdf : ℝ → ℝ) : Except PyErr (ScalarResult × Bool) := do
  return (← ScalarResult.init e.tolerance e.confidence e.minSamples cdf, e.plotSurface)

/-- `PAPR.initialize_result`, `core/evaluators.py` 466-468, with the defaults of `core/pymonte/scalar.py` 51-52. -/
def Settings.paprResult (e : Settings) (cdf : ℝ → ℝ) : Except PyErr (ScalarResult × Bool) := do
  return (← ScalarResult.init e.tolerance e.confidence 1024 cdf, true)

/-- What `SI.serialize` and `SI.Deserialize`, `simulation/evaluators/interference.py` 93-101, restore of the settings:
the defaults at lines 39-44. -/
def Settings.restored (_ : Settings) : Settings := ⟨0, 1, 1024, true⟩

/-! ### Power -/

/-- Mean of the squared magnitudes. -/
def meanSquare (cols : List (Col M)) (m : Fin M) : ℝ :=
  (∑ t : Fin cols.length, ‖cols[t] m‖ ^ 2) / cols.length

theorem energy_eq (cols : List (Col M)) (m : Fin M) :
    blockEnergy cols m = ∑ t : Fin cols.length, ‖cols[t] m‖ ^ 2 := by
  rw [blockEnergy, squares, ← List.sum_ofFn]
  congr 1
  apply List.ext_getElem
  · simp
  · intro i h1 h2
    simp [Complex.sq_norm]

theorem energy_nonneg (cols : List (Col M)) (m : Fin M) : 0 ≤ blockEnergy cols m := by
  rw [energy_eq]; exact Finset.sum_nonneg fun _ _ => by positivity

theorem length_pos {cols : List (Col M)} (h : cols ≠ []) : (0 : ℝ) < cols.length := by
  have := List.length_pos_of_ne_nil h
  exact_mod_cast this

/-- C102: dense signals have in each stream the power of its mean squared magnitude, which is never negative, and zero
only if every sample is. -/
theorem C102_power (cols : List (Col M)) (h : cols ≠ []) :
    ∃ p, (Sig.dense cols).power = some p ∧ ∀ m, p m = meanSquare cols m ∧ 0 ≤ p m ∧
      (p m = 0 ↔ ∀ c ∈ cols, c m = 0) := by
  refine ⟨_, by simp [Sig.power, blockPower, h]; rfl, fun m => ?_⟩
  have hl := length_pos h
  refine ⟨by rw [energy_eq]; rfl, div_nonneg (energy_nonneg _ _) hl.le, ?_⟩
  rw [div_eq_zero_iff, or_iff_left hl.ne', energy_eq,
    Finset.sum_eq_zero_iff_of_nonneg (fun _ _ => by positivity)]
  constructor
  · intro h0 c hc
    obtain ⟨i, hi, rfl⟩ := List.getElem_of_mem hc
    have := h0 ⟨i, hi⟩ (Finset.mem_univ _)
    simpa using this
  · intro h0 t _
    have := h0 cols[t] (List.getElem_mem _)
    simp [this]

theorem numbers_some (ps : List (Fin M → ℝ)) : numbers (ps.map some) = some ps := by
  induction ps with
  | nil => rfl
  | cons p ps ih => simp [numbers, ih]

theorem numbers_blocks (bs : List (List (Col M))) (h : ∀ b ∈ bs, b ≠ []) :
    numbers (bs.map blockPower) = some (bs.map fun b m => blockEnergy b m / b.length) := by
  rw [← numbers_some, List.map_map]
  congr 1
  apply List.map_congr_left
  intro b hb
  simp [blockPower, h b hb]

theorem sparse_power (bs : List (Block M)) (h : ∀ b ∈ bs, b.cols ≠ []) (hne : bs ≠ []) :
    (Sig.sparse bs).power = some fun m =>
      (bs.map fun b => blockEnergy b.cols m / b.cols.length).sum / bs.length := by
  have e : bs.map (fun b => blockPower b.cols) = (bs.map (·.cols)).map blockPower := by simp
  simp only [Sig.power]
  rw [e, numbers_blocks _ (by simpa using h)]
  obtain ⟨b, l, rfl⟩ := List.exists_cons_of_ne_nil hne
  simp [Function.comp_def]

/-- Mean of the squared magnitudes over the samples of all blocks. -/
def coveredMean (bs : List (Block M)) (m : Fin M) : ℝ := meanSquare (bs.flatMap (·.cols)) m

theorem covered_eq (bs : List (Block M)) (m : Fin M) :
    coveredMean bs m = (bs.map fun b => blockEnergy b.cols m).sum / ((bs.map fun b => b.cols.length).sum : ℕ) := by
  rw [coveredMean, meanSquare, ← energy_eq, List.length_flatMap]
  congr 1
  induction bs with
  | nil => simp [blockEnergy, squares]
  | cons b bs ih => simp_all [blockEnergy, squares]

/-- C102, sparse signals: if all blocks are equally long, their power is the mean over the blocks' samples. -/
theorem C102_sparse_partial (bs : List (Block M)) (hne : bs ≠ []) (n : ℕ) (hn : 0 < n)
    (h : ∀ b ∈ bs, b.cols.length = n) :
    ∃ p, (Sig.sparse bs).power = some p ∧ ∀ m, p m = coveredMean bs m := by
  have h0 : ∀ b ∈ bs, b.cols ≠ [] := fun b hb e => by have := h b hb; simp [e] at this; omega
  refine ⟨_, sparse_power bs h0 hne, fun m => ?_⟩
  rw [covered_eq]
  have e1 : (bs.map fun b => blockEnergy b.cols m / (b.cols.length : ℝ)) =
      bs.map fun b => blockEnergy b.cols m * (1 / (n : ℝ)) :=
    List.map_congr_left fun b hb => by rw [h b hb]; ring
  have e2 : (bs.map fun b => b.cols.length) = bs.map fun _ => n := List.map_congr_left h
  rw [e1, e2, List.sum_map_mul_right]
  have : (n : ℝ) ≠ 0 := by exact_mod_cast hn.ne'
  have : (bs.length : ℝ) ≠ 0 := by exact_mod_cast (List.length_pos_of_ne_nil hne).ne'
  simp only [List.map_const', List.sum_replicate, smul_eq_mul]
  push_cast
  field_simp

/-- C102, sparse signals: the power of two blocks is the mean over their samples if and only if the blocks are equally
long or have equal powers. -/
theorem C102_two_fails (a b : Block M) (ha : a.cols ≠ []) (hb : b.cols ≠ []) :
    ∃ p, (Sig.sparse [a, b]).power = some p ∧ ∀ m, p m = coveredMean [a, b] m ↔
      a.cols.length = b.cols.length ∨ meanSquare a.cols m = meanSquare b.cols m := by
  refine ⟨_, sparse_power [a, b] (by simp [ha, hb]) (by simp), fun m => ?_⟩
  rw [covered_eq]
  have h1 := length_pos ha
  have h2 := length_pos hb
  simp only [meanSquare, ← energy_eq, List.map_cons, List.map_nil, List.sum_cons, List.sum_nil, add_zero,
    List.length_cons, List.length_nil]
  push_cast
  set x := blockEnergy a.cols m
  set y := blockEnergy b.cols m
  have key : (x / (a.cols.length : ℝ) + y / b.cols.length) / 2 - (x + y) / (a.cols.length + b.cols.length) =
      -(a.cols.length - b.cols.length) * (x / a.cols.length - y / b.cols.length) /
        (2 * (a.cols.length + b.cols.length)) := by
    field_simp
    ring
  rw [← sub_eq_zero, key, div_eq_zero_iff, or_iff_left (by positivity), mul_eq_zero, neg_eq_zero, sub_eq_zero,
    sub_eq_zero]
  norm_cast

/-- C102: one signal has different powers in its dense and sparse form, neither being the mean over its non-zero
samples. -/
theorem C102_sparse_fails :
    let cols : List (Col 1) := [![2], ![0], ![1], ![1], ![1]]
    let bs : List (Block 1) := [⟨0, [![2]]⟩, ⟨2, [![1], ![1], ![1]]⟩]
    (Sig.sparse bs).cols = .ok cols ∧ (Sig.sparse bs).power = some ![5 / 2] ∧
      (Sig.dense cols).power = some ![7 / 5] ∧ coveredMean bs 0 = 7 / 4 := by
  intro cols bs
  refine ⟨?_, ?_, ?_, ?_⟩
  · have e : (0 : Col 1) = ![0] := by funext i; fin_cases i; rfl
    simp [Sig.cols, toDense, assignAll, assign, numSamples, Block.stop, bs, cols, List.replicate, e, bind, Except.bind]
  · rw [sparse_power bs (by simp [bs]) (by simp [bs])]
    congr 1
    funext m
    fin_cases m
    norm_num [bs, blockEnergy, squares, Complex.normSq_apply]
  · rw [Sig.power, blockPower, if_neg (by simp [cols])]
    congr 1
    funext m
    fin_cases m
    norm_num [cols, blockEnergy, squares, Complex.normSq_apply]
  · rw [covered_eq]
    norm_num [bs, blockEnergy, squares, Complex.normSq_apply]

/-- C102: silent sparse signals, which have no blocks, have no power at all instead of zero power. -/
theorem C102_silent_fails (n : ℕ) :
    (Sig.sparse ([] : List (Block M))).power = none ∧
      (Sig.dense (List.replicate (n + 1) (0 : Col M))).power = some 0 := by
  refine ⟨rfl, ?_⟩
  rw [Sig.power, blockPower, if_neg (by simp [List.replicate_succ])]
  congr 1
  funext m
  simp [blockEnergy, squares]

/-! ### What evaluators evaluate -/

theorem fetch_append {α : Type} (k : ℕ) (s : Slot α) (a b : List (Note α)) :
    fetch k s (a ++ b) = fetch k (fetch k s a) b := by
  simp [fetch, List.foldl_append]

theorem fetch_skip {α : Type} (k : ℕ) (s : Slot α) (h : List (Note α))
    (hk : ∀ n ∈ h, n.target = k → n.notify = false) : fetch k s h = s := by
  induction h generalizing s with
  | nil => rfl
  | cons n h ih =>
    have := hk n (by simp)
    have e : ¬(n.target = k ∧ n.notify = true) := by
      rintro ⟨a, b⟩
      rw [this a] at b
      cases b
    simp only [fetch, List.foldl_cons, if_neg e]
    exact ih s fun n hn => hk n (by simp [hn])

theorem fetch_last {α : Type} (s : Slot α) (pre post : List (Note α)) (n : Note α) (hn : n.notify = true)
    (hp : ∀ m ∈ post, m.target = n.target → m.notify = false) :
    fetch n.target s (pre ++ n :: post) = .held n.value := by
  rw [fetch_append, show n :: post = [n] ++ post from rfl, fetch_append, fetch_skip _ _ _ hp]
  simp [fetch, hn]

/-- C102: power evaluators report the power of what their receiver or transmitter last received or transmitted, whatever
happened before and whatever other nodes do, and raise `RuntimeError` exactly as long as there was nothing. -/
theorem C102_latest (k : ℕ) (h : List (Note (Sig M))) :
    (∀ pre post n, h = pre ++ n :: post → n.target = k → n.notify = true →
      (∀ m ∈ post, m.target = k → m.notify = false) → powerEvaluate k h = .ok n.value.power) ∧
    (powerEvaluate k h = .error .runtime ↔ ∀ n ∈ h, n.target = k → n.notify = false) := by
  constructor
  · rintro pre post n rfl rfl hn hp
    rw [powerEvaluate, fetch_last _ _ _ _ hn hp]
    rfl
  · constructor
    · intro he
      induction h using List.reverseRecOn with
      | nil => simp
      | append_singleton h n ih =>
        rw [powerEvaluate, fetch_append] at he
        by_cases hn : n.target = k ∧ n.notify = true
        · simp only [fetch, List.foldl_cons, List.foldl_nil, if_pos hn] at he
          cases he
        · have e : fetch k (fetch k .empty h) [n] = fetch k .empty h := by
            simp only [fetch, List.foldl_cons, List.foldl_nil, if_neg hn]
          rw [e] at he
          have ih := ih he
          intro m hm hk
          rcases List.mem_append.mp hm with hm | hm
          · exact ih m hm hk
          · rw [List.mem_singleton] at hm
            subst hm
            simpa [hk] using hn
    · intro hk
      rw [powerEvaluate, fetch_skip _ _ _ hk]
      rfl

/-- C102: self-interference evaluators report the power of the leakage into the last reception of their device. -/
theorem C102_leakage (pre post : List (Note (Input M))) (n : Note (Input M)) (hn : n.notify = true)
    (hp : ∀ m ∈ post, m.target = n.target → m.notify = false) (s : Sig M) (hs : n.value.leaking = some s) :
    siEvaluate n.target (pre ++ n :: post) = .ok s.power := by
  rw [siEvaluate, fetch_last _ _ _ _ hn hp]
  simp only [Slot.get, bind, Except.bind, hs]

theorem fetch_cases {α : Type} (k : ℕ) (s : Slot α) (h : List (Note α)) :
    fetch k s h = s ∨ ∃ n ∈ h, fetch k s h = .held n.value := by
  induction h using List.reverseRecOn with
  | nil => exact .inl rfl
  | append_singleton h n ih =>
    rw [fetch_append]
    by_cases hn : n.target = k ∧ n.notify = true
    · right
      exact ⟨n, by simp, by simp only [fetch, List.foldl_cons, List.foldl_nil, if_pos hn]⟩
    · have e : fetch k (fetch k s h) [n] = fetch k s h := by
        simp only [fetch, List.foldl_cons, List.foldl_nil, if_neg hn]
      rw [e]
      rcases ih with ih | ⟨m, hm, ih⟩
      · exact .inl ih
      · exact .inr ⟨m, by simp [hm], ih⟩

/-- C102: evaluators of devices that did not receive, or did not transmit, raise `AttributeError` instead of the
`RuntimeError` meant for that case, which no history leads to. -/
theorem C102_unset_fails (k : ℕ) (outs : List (Note (Sig M))) (ins : List (Note (List (Sig M))))
    (h : List (Note (Input M))) :
    ((∀ n ∈ h, n.target = k → n.notify = false) →
      siEvaluate k h = .error .attribute ∧ ssinrEvaluate k h = .error .attribute) ∧
    ((∀ n ∈ outs, n.target = k → n.notify = false) → paprEvaluate k .tx outs ins = .error .attribute) ∧
    ((∀ n ∈ ins, n.target = k → n.notify = false) → paprEvaluate k .rx outs ins = .error .attribute) ∧
    siEvaluate k h ≠ .error .runtime ∧ ssinrEvaluate k h ≠ .error .runtime := by
  refine ⟨fun hk => ?_, fun hk => ?_, fun hk => ?_, ?_, ?_⟩
  · rw [siEvaluate, ssinrEvaluate, fetch_skip _ _ _ hk]
    exact ⟨rfl, rfl⟩
  · rw [paprEvaluate, fetch_skip _ _ _ hk]
    rfl
  · rw [paprEvaluate, fetch_skip _ _ _ hk]
    rfl
  · rw [siEvaluate]
    rcases fetch_cases k .unset h with e | ⟨n, -, e⟩
    · rw [e]; intro h; cases h
    · rw [e]
      simp only [Slot.get, bind, Except.bind]
      split <;> intro h <;> cases h
  · rw [ssinrEvaluate]
    rcases fetch_cases k .unset h with e | ⟨n, -, e⟩
    · rw [e]; intro h; cases h
    · rw [e]
      simp only [Slot.get, bind, Except.bind]
      repeat' split
      all_goals intro h; cases h

/-- C102: a reception without leakage, which is what devices that transmit nothing report, makes the evaluators raise
`AttributeError` instead of reporting no interference. -/
theorem C102_isolated_fails (pre post : List (Note (Input M))) (n : Note (Input M)) (hn : n.notify = true)
    (hp : ∀ m ∈ post, m.target = n.target → m.notify = false) (hs : n.value.leaking = none) :
    siEvaluate n.target (pre ++ n :: post) = .error .attribute ∧
      ssinrEvaluate n.target (pre ++ n :: post) = .error .attribute := by
  rw [siEvaluate, ssinrEvaluate, fetch_last _ _ _ _ hn hp]
  simp only [Slot.get, bind, Except.bind, hs, and_self]

/-! ### Peak to average power -/

theorem peak_greatest (l : List ℝ) (h0 : ∀ x ∈ l, 0 ≤ x) (hne : l ≠ []) : IsGreatest {x | x ∈ l} (peak l) := by
  induction l with
  | nil => exact absurd rfl hne
  | cons x l ih =>
    by_cases hl : l = []
    · subst hl
      have := h0 x (by simp)
      constructor
      · simp [peak, this]
      · intro y hy
        simp [peak] at hy ⊢
        left; exact hy.le
    · have ih := ih (fun y hy => h0 y (by simp [hy])) hl
      have e : peak (x :: l) = max x (peak l) := rfl
      rw [e]
      constructor
      · rcases max_choice x (peak l) with e | e <;> rw [e]
        · simp
        · have := ih.1
          simp only [Set.mem_ofPred_eq] at this ⊢
          exact List.mem_cons_of_mem _ this
      · intro y hy
        rcases List.mem_cons.mp hy with rfl | hy
        · exact le_max_left _ _
        · exact le_trans (ih.2 hy) (le_max_right _ _)

theorem squares_nonneg (cols : List (Col M)) (m : Fin M) : ∀ x ∈ squares cols m, 0 ≤ x := by
  intro x hx
  obtain ⟨c, -, rfl⟩ := List.mem_map.mp hx
  exact Complex.normSq_nonneg _

theorem squares_length (cols : List (Col M)) (m : Fin M) : (squares cols m).length = cols.length := by
  simp [squares]

theorem energy_pos (cols : List (Col M)) (m : Fin M) (h : ∃ c ∈ cols, c m ≠ 0) : 0 < (squares cols m).sum := by
  obtain ⟨c, hc, hm⟩ := h
  have h1 : Complex.normSq (c m) ≤ (squares cols m).sum :=
    List.single_le_sum (squares_nonneg cols m) _ (List.mem_map.mpr ⟨c, hc, rfl⟩)
  exact lt_of_lt_of_le (Complex.normSq_pos.mpr hm) h1

theorem papr_some (hM : 0 < M) (cols : List (Col M)) (h : ∀ m : Fin M, ∃ c ∈ cols, c m ≠ 0) :
    papr cols = .ok (some ((∑ m : Fin M, peak (squares cols m) / ((squares cols m).sum / cols.length)) / M)) := by
  have hne : cols ≠ [] := by
    rintro rfl
    obtain ⟨c, hc, -⟩ := h ⟨0, hM⟩
    simp at hc
  rw [papr, if_neg hne, if_neg]
  rintro (h0 | ⟨m, hm⟩)
  · omega
  · have := energy_pos cols m (h m)
    have := length_pos hne
    have : 0 < (squares cols m).sum / cols.length := by positivity
    linarith

/-- C102, peak to average power: with signals in all streams, the mean over the streams of the largest squared magnitude
over the mean squared magnitude is reported. -/
theorem C102_papr (hM : 0 < M) (cols : List (Col M)) (h : ∀ m : Fin M, ∃ c ∈ cols, c m ≠ 0) (p : Fin M → ℝ)
    (hp : ∀ m, IsGreatest {x | ∃ c ∈ cols, x = ‖c m‖ ^ 2} (p m)) :
    papr cols = .ok (some ((∑ m, p m / meanSquare cols m) / M)) := by
  rw [papr_some hM cols h]
  suffices e : ∀ m, peak (squares cols m) / ((squares cols m).sum / cols.length) = p m / meanSquare cols m by
    simp only [e]
  intro m
  have hne : squares cols m ≠ [] := by
    obtain ⟨c, hc, -⟩ := h m
    intro e
    have := squares_length cols m
    rw [e] at this
    have := List.length_pos_of_mem hc
    simp at *
    omega
  have e : {x | x ∈ squares cols m} = {x | ∃ c ∈ cols, x = ‖c m‖ ^ 2} := by
    ext x
    simp only [Set.mem_ofPred_eq, squares, List.mem_map, Complex.sq_norm]
    exact ⟨fun ⟨c, hc, e⟩ => ⟨c, hc, e.symm⟩, fun ⟨c, hc, e⟩ => ⟨c, hc, e.symm⟩⟩
  have := peak_greatest _ (squares_nonneg cols m) hne
  rw [e] at this
  rw [this.unique (hp m), meanSquare, ← energy_eq]
  rfl

theorem sum_le_peak (l : List ℝ) (h0 : ∀ x ∈ l, 0 ≤ x) (hne : l ≠ []) :
    l.sum ≤ l.length * peak l ∧ peak l ≤ l.sum ∧ (l.sum = l.length * peak l ↔ ∀ x ∈ l, x = peak l) := by
  have hg := peak_greatest l h0 hne
  have hle : ∀ x ∈ l, x ≤ peak l := fun x hx => hg.2 hx
  refine ⟨?_, List.single_le_sum h0 _ hg.1, ?_⟩
  · have := List.sum_le_card_nsmul l (peak l) hle
    simpa using this
  · generalize peak l = q at hle
    clear hg h0 hne
    induction l with
    | nil => simp
    | cons x l ih =>
      have ih := ih fun y hy => hle y (by simp [hy])
      have h1 := hle x (by simp)
      have h2 : l.sum ≤ l.length * q := by
        have := List.sum_le_card_nsmul l q fun y hy => hle y (by simp [hy])
        simpa using this
      simp only [List.sum_cons, List.length_cons, List.mem_cons, forall_eq_or_imp]
      push_cast
      rw [← ih]
      constructor
      · intro h; constructor <;> nlinarith
      · rintro ⟨h, h'⟩; rw [h', h]; ring

/-- C102, peak to average power: it lies between one, exactly for constant magnitudes, and the number of samples. -/
theorem C102_papr_bounds (hM : 0 < M) (cols : List (Col M)) (h : ∀ m : Fin M, ∃ c ∈ cols, c m ≠ 0) :
    ∃ r, papr cols = .ok (some r) ∧ 1 ≤ r ∧ r ≤ cols.length ∧
      (r = 1 ↔ ∀ m, ∀ c ∈ cols, ∀ c' ∈ cols, ‖c m‖ = ‖c' m‖) := by
  refine ⟨_, papr_some hM cols h, ?_⟩
  have hne : cols ≠ [] := by
    rintro rfl
    obtain ⟨c, hc, -⟩ := h ⟨0, hM⟩
    simp at hc
  have hl := length_pos hne
  have hsq : ∀ m, squares cols m ≠ [] := fun m e => by
    have := squares_length cols m
    rw [e] at this
    exact hne (List.length_eq_zero_iff.mp this.symm)
  have hs := fun m => sum_le_peak _ (squares_nonneg cols m) (hsq m)
  have hM' : (0 : ℝ) < M := by exact_mod_cast hM
  simp only [squares_length] at hs
  set q := fun m : Fin M => peak (squares cols m) / ((squares cols m).sum / cols.length) with hq
  have hpos := fun m => energy_pos cols m (h m)
  have h1 : ∀ m, 1 ≤ q m := fun m => by
    rw [hq]; dsimp only
    rw [le_div_iff₀ (div_pos (hpos m) hl), one_mul, div_le_iff₀ hl]
    linarith [(hs m).1]
  have h2 : ∀ m, q m ≤ cols.length := fun m => by
    rw [hq]; dsimp only
    have := hpos m
    rw [div_le_iff₀ (div_pos this hl)]
    rw [mul_div_cancel₀ _ hl.ne']
    exact (hs m).2.1
  have h3 : ∀ m, q m = 1 ↔ ∀ c ∈ cols, ∀ c' ∈ cols, ‖c m‖ = ‖c' m‖ := fun m => by
    have e : q m = 1 ↔ (squares cols m).sum = cols.length * peak (squares cols m) := by
      rw [hq]; dsimp only
      rw [div_eq_one_iff_eq (div_pos (hpos m) hl).ne', eq_div_iff hl.ne', mul_comm, eq_comm]
    rw [e, (hs m).2.2]
    have hg := peak_greatest _ (squares_nonneg cols m) (hsq m)
    constructor
    · intro hx c hc c' hc'
      have e1 := hx _ (List.mem_map.mpr ⟨c, hc, rfl⟩)
      have e2 := hx _ (List.mem_map.mpr ⟨c', hc', rfl⟩)
      have : ‖c m‖ ^ 2 = ‖c' m‖ ^ 2 := by rw [Complex.sq_norm, Complex.sq_norm, e1, e2]
      exact (pow_left_inj₀ (norm_nonneg _) (norm_nonneg _) two_ne_zero).mp this
    · intro hx x hx'
      obtain ⟨c, hc, rfl⟩ := List.mem_map.mp hx'
      obtain ⟨c', hc', e'⟩ := List.mem_map.mp hg.1
      rw [← e', ← Complex.sq_norm, ← Complex.sq_norm, hx c hc c' hc']
  refine ⟨?_, ?_, ?_⟩
  · rw [le_div_iff₀ hM', one_mul]
    calc (M : ℝ) = ∑ _m : Fin M, (1 : ℝ) := by simp
      _ ≤ _ := Finset.sum_le_sum fun m _ => h1 m
  · rw [div_le_iff₀ hM']
    calc (∑ m, q m) ≤ ∑ _m : Fin M, (cols.length : ℝ) := Finset.sum_le_sum fun m _ => h2 m
      _ = _ := by simp [mul_comm]
  · rw [div_eq_one_iff_eq hM'.ne']
    have e : (∑ m, q m) = (M : ℝ) ↔ ∀ m, q m = 1 := by
      have e1 : (∑ m, q m) - M = ∑ m, (q m - 1) := by simp
      rw [← sub_eq_zero, e1, Finset.sum_eq_zero_iff_of_nonneg fun m _ => by linarith [h1 m]]
      simp [sub_eq_zero]
    rw [e]
    exact forall_congr' h3

theorem peak_scale (l : List ℝ) (a : ℝ) (ha : 0 ≤ a) : peak (l.map (a * ·)) = a * peak l := by
  induction l with
  | nil => simp [peak]
  | cons x l ih =>
    have e : peak ((x :: l).map (a * ·)) = max (a * x) (peak (l.map (a * ·))) := rfl
    rw [e, ih, show peak (x :: l) = max x (peak l) from rfl, mul_max_of_nonneg _ _ ha]

/-- C102, peak to average power: it does not change with gains and phases of the streams. -/
theorem C102_papr_scale (cols : List (Col M)) (g : Fin M → ℂ) (hg : ∀ m, g m ≠ 0) :
    papr (cols.map fun c m => g m * c m) = papr cols := by
  have e : ∀ m, squares (cols.map fun c m => g m * c m) m = (squares cols m).map (Complex.normSq (g m) * ·) := by
    intro m
    simp [squares, Function.comp_def]
  have hn : ∀ m, Complex.normSq (g m) ≠ 0 := fun m => (Complex.normSq_pos.mpr (hg m)).ne'
  unfold papr
  have e1 : ∀ m, ((squares cols m).map (Complex.normSq (g m) * ·)).sum = Complex.normSq (g m) * (squares cols m).sum :=
    fun m => by simpa using List.sum_map_mul_left (squares cols m) id (Complex.normSq (g m))
  simp only [e, e1, List.length_map, List.map_eq_nil_iff]
  have e2 : ∀ m, Complex.normSq (g m) * (squares cols m).sum / (cols.length : ℝ) = 0 ↔
      (squares cols m).sum / (cols.length : ℝ) = 0 := fun m => by
    rw [mul_div_assoc, mul_eq_zero, or_iff_right (hn m)]
  simp only [e2]
  split
  · rfl
  · split
    · rfl
    · suffices e : ∀ m, peak ((squares cols m).map (Complex.normSq (g m) * ·)) /
          (Complex.normSq (g m) * (squares cols m).sum / cols.length) =
          peak (squares cols m) / ((squares cols m).sum / cols.length) by
        simp only [e]
      intro m
      rw [peak_scale _ _ (Complex.normSq_nonneg _), mul_div_assoc (Complex.normSq (g m)) _ (cols.length : ℝ),
        mul_div_mul_left _ _ (hn m)]

/-- C102, peak to average power: one stream without signal leaves no ratio, whatever the other streams are. -/
theorem C102_papr_silent_fails (cols : List (Col M)) (h : cols ≠ []) (m : Fin M) (hm : ∀ c ∈ cols, c m = 0) :
    papr cols = .ok none := by
  rw [papr, if_neg h, if_pos]
  right
  refine ⟨m, ?_⟩
  have : squares cols m = List.replicate cols.length 0 := by
    rw [squares, List.eq_replicate_iff]
    refine ⟨by simp, ?_⟩
    intro x hx
    obtain ⟨c, hc, rfl⟩ := List.mem_map.mp hx
    simp [hm c hc]
  simp [this]

/-- C102, peak to average power: of everything received, only the first impinging signal is evaluated; without any,
evaluation fails. -/
theorem C102_papr_first_fails (outs : List (Note (Sig M))) (pre post : List (Note (List (Sig M))))
    (n : Note (List (Sig M))) (hn : n.notify = true) (hp : ∀ m ∈ post, m.target = n.target → m.notify = false) :
    (∀ s rest, n.value = s :: rest → paprEvaluate n.target .rx outs (pre ++ n :: post) = s.cols >>= papr) ∧
    (n.value = [] → paprEvaluate n.target .rx outs (pre ++ n :: post) = .error .index) := by
  rw [paprEvaluate, fetch_last _ _ _ _ hn hp]
  constructor
  · intro s rest e
    simp only [Slot.get, bind, Except.bind, e]
  · intro e
    simp only [Slot.get, bind, Except.bind, e]

/-- C102, peak to average power: the last transmission is evaluated, both directions at once cannot be. -/
theorem C102_papr_latest (pre post : List (Note (Sig M))) (ins : List (Note (List (Sig M)))) (n : Note (Sig M))
    (hn : n.notify = true) (hp : ∀ m ∈ post, m.target = n.target → m.notify = false) :
    paprEvaluate n.target .tx (pre ++ n :: post) ins = n.value.cols >>= papr ∧
      paprEvaluate n.target .duplex (pre ++ n :: post) ins = .error .value := by
  refine ⟨?_, rfl⟩
  rw [paprEvaluate, fetch_last _ _ _ _ hn hp]
  rfl

/-! ### Signal to self-interference plus noise -/

/-- Superposition of signals of one length `n`. -/
def superposed (n : ℕ) (l : List (List (Col M))) : List (Col M) :=
  (List.range n).map fun t => (l.map fun x => sample x t).sum

/-- Inner product of one stream of two signals. -/
def inner (n : ℕ) (m : Fin M) (x y : ℕ → Col M) : ℝ := ∑ t ∈ Finset.range n, (x t m * (starRingEnd ℂ) (y t m)).re

theorem energy_range (n : ℕ) (x : ℕ → Col M) (m : Fin M) :
    blockEnergy ((List.range n).map x) m = ∑ t ∈ Finset.range n, Complex.normSq (x t m) := by
  rw [blockEnergy, squares, List.map_map, Finset.sum_range, ← List.sum_ofFn]
  congr 1
  apply List.ext_getElem <;> simp

theorem cols_range (n : ℕ) (x : List (Col M)) (h : x.length = n) : x = (List.range n).map (sample x) := by
  apply List.ext_getElem
  · simp [h]
  · intro i h1 h2
    simp [sample, h1]

theorem inner_sum (n : ℕ) (m : Fin M) (x : ℕ → Col M) (l : List (ℕ → Col M)) :
    inner n m x (fun t => (l.map (· t)).sum) = (l.map fun y => inner n m x y).sum := by
  induction l with
  | nil => simp [inner]
  | cons y l ih =>
    rw [List.map_cons, List.sum_cons, ← ih, inner, inner, inner, ← Finset.sum_add_distrib]
    refine Finset.sum_congr rfl fun t _ => ?_
    simp only [List.map_cons, List.sum_cons, Pi.add_apply, map_add, mul_add, Complex.add_re]

theorem energy_sum (n : ℕ) (m : Fin M) (l : List (ℕ → Col M)) (h : l.Pairwise fun x y => inner n m x y = 0) :
    (∑ t ∈ Finset.range n, Complex.normSq ((l.map (· t)).sum m)) =
      (l.map fun x => ∑ t ∈ Finset.range n, Complex.normSq (x t m)).sum := by
  induction l with
  | nil => simp
  | cons x l ih =>
    obtain ⟨h1, h2⟩ := List.pairwise_cons.mp h
    rw [List.map_cons, List.sum_cons, ← ih h2]
    have e : ∀ t, Complex.normSq (((x :: l).map (· t)).sum m) = Complex.normSq (x t m) +
        Complex.normSq ((l.map (· t)).sum m) + 2 * (x t m * (starRingEnd ℂ) ((l.map (· t)).sum m)).re := by
      intro t
      rw [List.map_cons, List.sum_cons, Pi.add_apply, Complex.normSq_add]
    simp only [e, Finset.sum_add_distrib, ← Finset.mul_sum]
    have h0 : inner n m x (fun t => (l.map (· t)).sum) = 0 := by
      rw [inner_sum]
      apply List.sum_eq_zero
      intro z hz
      obtain ⟨y, hy, rfl⟩ := List.mem_map.mp hz
      exact h1 y hy
    rw [inner] at h0
    rw [h0]; ring

/-- C102, signal to self-interference plus noise: for impinging signals of one length, none of which is correlated with
another, the power of their superposition over the power of leakage and noise is reported for each antenna. -/
theorem C102_ssinr_partial (pre post : List (Note (Input M))) (n : Note (Input M)) (hn : n.notify = true)
    (hp : ∀ m ∈ post, m.target = n.target → m.notify = false) (N : ℕ) (hN : 0 < N) (l : List (List (Col M)))
    (hl : l ≠ []) (hlen : ∀ x ∈ l, x.length = N)
    (horth : ∀ m, l.Pairwise fun x y => ∑ t ∈ Finset.range N, (sample x t m * (starRingEnd ℂ) (sample y t m)).re = 0)
    (leak : List (Col M)) (hleak : leak ≠ []) (w : ℝ) (hw : 0 < w)
    (hv : n.value = ⟨l.map .dense, some (.dense leak), w⟩) :
    ssinrEvaluate n.target (pre ++ n :: post) = .ok (some fun m =>
      meanSquare (superposed N l) m / (meanSquare leak m + w)) := by
  rw [ssinrEvaluate, fetch_last _ _ _ _ hn hp]
  have hN' : (N : ℝ) ≠ 0 := by exact_mod_cast hN.ne'
  have e1 : (Sig.dense leak).power = some fun m => meanSquare leak m := by
    simp only [Sig.power, blockPower, if_neg hleak, meanSquare, energy_eq]
  have hne : ∀ x ∈ l, x ≠ [] := fun x hx e => by have := hlen x hx; simp [e] at this; omega
  have e2 : numbers ((l.map Sig.dense).map Sig.power) = some (l.map fun x m => blockEnergy x m / x.length) := by
    rw [List.map_map, ← numbers_blocks l hne]
    rfl
  simp only [Slot.get, bind, Except.bind, hv, e1, e2, List.map_eq_nil_iff, if_neg hl]
  have hpos : ∀ m, 0 < meanSquare leak m + w := fun m => by
    have : 0 ≤ meanSquare leak m := by rw [meanSquare]; positivity
    linarith
  rw [if_neg (by rintro ⟨m, hm⟩; linarith [hpos m])]
  congr 2
  funext m
  congr 1
  have e3 : (l.map fun x m => blockEnergy x m / (x.length : ℝ)).map (· m) =
      l.map fun x => (∑ t ∈ Finset.range N, Complex.normSq (sample x t m)) * (1 / (N : ℝ)) := by
    rw [List.map_map]
    refine List.map_congr_left fun x hx => ?_
    simp only [Function.comp]
    have := energy_range N (sample x) m
    rw [← cols_range N x (hlen x hx)] at this
    rw [this, hlen x hx]; ring
  rw [e3, List.sum_map_mul_right, meanSquare, ← energy_eq, superposed, energy_range]
  have e4 := energy_sum N m (l.map sample) (by
    rw [List.pairwise_map]
    exact horth m)
  simp only [List.map_map, Function.comp_def] at e4
  rw [e4]
  simp [div_eq_mul_inv]

/-- C102 fails for correlated signals: two which cancel each other are reported as twice the power of one. -/
theorem C102_ssinr_fails (x leak : List (Col M)) (hx : x ≠ []) (hleak : leak ≠ []) (w : ℝ) (hw : 0 < w) (k : ℕ) :
    ssinrEvaluate k [⟨k, true, ⟨[.dense x, .dense (x.map (- ·))], some (.dense leak), w⟩⟩] = .ok (some fun m =>
      2 * meanSquare x m / (meanSquare leak m + w)) ∧
    ∀ m, meanSquare (superposed x.length [x, x.map (- ·)]) m = 0 := by
  constructor
  · rw [ssinrEvaluate, show fetch k .unset [(⟨k, true, ⟨[.dense x, .dense (x.map (- ·))], some (.dense leak), w⟩⟩ :
      Note (Input M))] = .held ⟨[.dense x, .dense (x.map (- ·))], some (.dense leak), w⟩ by simp [fetch]]
    have e1 : (Sig.dense leak).power = some fun m => meanSquare leak m := by
      simp only [Sig.power, blockPower, if_neg hleak, meanSquare, energy_eq]
    have e2 : numbers ([Sig.dense x, Sig.dense (x.map (- ·))].map Sig.power) =
        some [fun m => meanSquare x m, fun m => meanSquare x m] := by
      have e : ∀ m, blockEnergy (x.map (- ·)) m = blockEnergy x m := fun m => by
        simp [blockEnergy, squares, Function.comp_def]
      have e' : (fun m => meanSquare x m) = fun m => blockEnergy x m / (x.length : ℝ) := by
        funext m; rw [meanSquare, ← energy_eq]
      rw [e']
      simp [numbers, Sig.power, blockPower, hx, e]
    simp only [Slot.get, bind, Except.bind, e1, e2]
    have hpos : ∀ m, 0 < meanSquare leak m + w := fun m => by
      have : 0 ≤ meanSquare leak m := by rw [meanSquare]; positivity
      linarith
    rw [if_neg (by simp), if_neg (by rintro ⟨m, hm⟩; linarith [hpos m])]
    congr 2
    funext m
    simp [two_mul]
  · intro m
    rw [meanSquare, ← energy_eq, superposed, energy_range]
    have : ∀ t, ([x, x.map (- ·)].map fun y => sample y t).sum = 0 := fun t => by
      simp only [List.map_cons, List.map_nil, List.sum_cons, List.sum_nil, sample, List.getElem?_map, add_zero]
      cases x[t]? <;> simp
    simp only [this, Pi.zero_apply, map_zero, Finset.sum_const_zero, zero_div]

/-- C102 fails for scalars: antennas with one ratio are reported as that many times the ratio. -/
theorem C102_scalar_fails (r : ℝ) : toScalar (fun _ : Fin M => r) = M * r := by
  simp [toScalar]

/-! ### Settings -/

/-- C102, settings: power evaluators accumulate results with the tolerance, the confidence and the number of samples
configured. -/
theorem C102_settings (e : Settings) (cdf : ℝ → ℝ) (r : ScalarResult × Bool) (h : e.result cdf = .ok r) :
    r.1.accuracy = e.tolerance ∧ r.1.confidence = e.confidence ∧ r.1.minSamples = e.minSamples ∧
      r.2 = e.plotSurface := by
  unfold Settings.result ScalarResult.init at h
  simp only [bind, Except.bind, pure, Except.pure] at h
  repeat' split at h
  all_goals first
    | (cases h; done)
    | (rename_i hh; repeat' split at hh
       all_goals first
         | (cases hh; done)
         | (cases hh; cases h; exact ⟨rfl, rfl, rfl, rfl⟩))

/-- C102 fails for peak to average power: the number of samples and the plot configured are ignored, and stored
self-interference evaluators forget all settings. -/
theorem C102_settings_fails (e : Settings) (cdf : ℝ → ℝ) (h : 0 ≤ e.tolerance ∧ 0 ≤ e.confidence ∧ e.confidence ≤ 1) :
    (∃ r, e.paprResult cdf = .ok r ∧ r.1.minSamples = 1024 ∧ r.2 = true) ∧ e.restored = ⟨0, 1, 1024, true⟩ := by
  refine ⟨?_, rfl⟩
  unfold Settings.paprResult ScalarResult.init
  rw [if_neg (by push Not; exact ⟨h.2.2, h.2.1⟩), if_neg (by push Not; exact h.1), if_neg (by norm_num)]
  exact ⟨_, rfl, rfl, rfl⟩

/-! ### Examples -/

/-- Two orthogonal impinging signals of two samples at two antennas. -/
example : ∃ p, ssinrEvaluate 3 [⟨3, true, ⟨[.dense [![1, 2], ![1, 2]], .dense [![1, 1], ![-1, -1]]],
      some (.dense [![1, 0]]), 1⟩⟩] = .ok (some p) ∧ p 0 = 1 ∧ p 1 = 5 := by
  refine ⟨_, C102_ssinr_partial [] [] ⟨3, true, _⟩ rfl (by simp) 2 (by norm_num) [[![1, 2], ![1, 2]], [![1, 1], ![-1, -1]]]
    (by simp) (by simp) ?_ [![1, 0]] (by simp) 1 (by norm_num) rfl, ?_, ?_⟩
  · intro m
    fin_cases m <;> simp [Finset.sum_range_succ, sample]
  · simp only [meanSquare, ← energy_eq]
    norm_num [superposed, blockEnergy, squares, List.range_succ, sample, Complex.normSq_apply]
  · simp only [meanSquare, ← energy_eq]
    norm_num [superposed, blockEnergy, squares, List.range_succ, sample, Complex.normSq_apply]

/-- A signal of two streams with peaks. -/
example : papr ([![1, 2], ![0, 2]] : List (Col 2)) = .ok (some (3 / 2)) := by
  rw [C102_papr (by norm_num) _ (fun m => by fin_cases m <;> simp) ![1, 4]]
  · congr 2
    simp only [meanSquare, ← energy_eq, Fin.sum_univ_two]
    norm_num [blockEnergy, squares, Complex.normSq_apply]
  · intro m
    fin_cases m
    · constructor
      · simp
      · rintro x ⟨c, hc, rfl⟩
        simp at hc
        rcases hc with rfl | rfl <;> simp
    · constructor
      · simp; norm_num
      · rintro x ⟨c, hc, rfl⟩
        simp at hc
        rcases hc with rfl | rfl <;> norm_num

/-- The last of three receptions counts. -/
example (a b c : Sig 1) : powerEvaluate 1 [⟨1, true, a⟩, ⟨1, true, b⟩, ⟨2, true, c⟩, ⟨1, false, c⟩] = .ok b.power :=
  (C102_latest 1 _).1 [⟨1, true, a⟩] [⟨2, true, c⟩, ⟨1, false, c⟩] ⟨1, true, b⟩ rfl rfl rfl (by simp)

end

end Verif.Power
