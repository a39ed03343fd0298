import Verif.Signal.Slice
import Verif.Signal.Dense

/-!
# C88: what simulated devices receive

`hermespy/simulation/simulated_device.py` 763-887 and 1751-2028.  Signals have the carrier frequency of the device and
a stream for each receive antenna; the impinging signals are different objects.  Coupling and antennas, the RF chain, the
noise realization and the receive coding are functions of the samples.
-/

namespace Verif.SimDev

open Verif.Signal

variable {M : ℕ}

/-- Exceptions of a reception: those of Python's library, and `UnboundLocalError`. -/
inductive Raised where
  | py (e : PyErr)
  | unbound
  deriving DecidableEq

/-- Impinging signals, each with its kind (sparse or dense), lines 1905-1906: superimposed one after the other.  Also
returns the impinging signals after the call, since delayed sparse ones are displaced in place. -/
def mixAll (s : Sparse M) : List (Sparse M × Bool) → Except PyErr (Sparse M × List (Sparse M × Bool))
  | [] => .ok (s, [])
  | (a, sparse) :: l =>
    match s.superimpose a sparse with
    | .error e => .error e
    | .ok (s', a') =>
      match mixAll s' l with
      | .error e => .error e
      | .ok (r, l') => .ok (r, (a', sparse) :: l')

/-- `SparseSignal.Empty`, lines 1899-1904: sparsifying a matrix without columns yields an empty block, C21. -/
noncomputable def emptySparse (M : ℕ) (rate carrier trig : ℚ) : Sparse M := ⟨fromDense [] 0, rate, carrier, trig⟩

/-- Columns as an array. -/
def ofCols (cols : List (Col M)) : Arr :=
  ⟨M, cols.length, fun m n => if h : m < M then ((cols[n]?).getD 0) ⟨m, h⟩ else 0⟩

/-- Correction of the trigger, lines 1912-1931, of a dense signal.  `signal` is the local variable of that name: bound to
the last impinging signal by the loop of line 1905, if there is one.  `np.zeros` refuses negative dimensions. -/
noncomputable def synchronize (rate trig : ℚ) (d : Dense) (signal : Bool) : Except Raised Dense :=
  let n := truncInt (((trig - d.delay) * rate : ℚ) : ℝ)
  let a : Except Raised Arr :=
    if n > 0 then .ok (d.a.dropCols n.toNat)
    else if n < 0 then (if signal then .error (.py .value) else .error .unbound)
    else .ok d.a
  match a with
  | .error e => .error e
  | .ok a => if d.delay - n * rate < 0 then .error (.py .value) else .ok ⟨a, d.rate, d.delay - n * rate⟩

/-- What a reception reads of the device. -/
structure RxDevice where
  rate : ℚ
  carrier : ℚ
  separation : Bool
  front : Arr → Except PyErr Arr
  rf : Arr → Except PyErr Arr
  noise : Arr → Arr
  decode : Arr → Except PyErr Arr
  receivers : List (Option (List ℤ))

/-- Selection of streams by `DenseSignal.__getitem__`, line 1826. -/
def selectRows (z : Arr) : Option (List ℤ) → Except PyErr Arr
  | none => .ok z
  | some l =>
    if ∀ i ∈ l, -(z.M : ℤ) ≤ i ∧ i < z.M then
      .ok ⟨l.length, z.N, fun m n => z.x (((l[m]?).getD 0) % (z.M : ℤ)).toNat n⟩
    else .error .index

/-- `_generate_receiver_input`, lines 1786-1830. -/
def RxDevice.input (d : RxDevice) (baseband : Arr) (ports : Option (List ℤ)) : Except PyErr Arr :=
  match d.decode (d.noise baseband) with
  | .error e => .error e
  | .ok z => selectRows z ports

/-- Inputs of all receivers, line 1954. -/
def RxDevice.inputs (d : RxDevice) (baseband : Arr) : List (Option (List ℤ)) → Except PyErr (List Arr)
  | [] => .ok []
  | p :: ps =>
    match d.input baseband p with
    | .error e => .error e
    | .ok x =>
      match d.inputs baseband ps with
      | .error e => .error e
      | .ok xs => .ok (x :: xs)

/-- The argument `leaking_signals`. -/
inductive Leaking where
  | absent
  | one (s : Dense)
  | many (l : List Dense)

/-- Lines 1940-1943. -/
def Leaking.first : Leaking → Except PyErr (Option Dense)
  | .absent => .ok none
  | .one s => .ok (some s)
  | .many [] => .error .index
  | .many (s :: _) => .ok (some s)

/-- Leakage onto what the antennas receive, lines 1945-1950. -/
def addLeakage (s : Dense) : Option Dense → Except PyErr Dense
  | none => .ok s
  | some v => s.superimpose v

/-- `ProcessedSimulatedDeviceInput`. -/
structure Processed where
  leaking : Option Dense
  baseband : Arr
  inputs : List Arr

/-- Lines 1933-1968, of `count` impinging signals: dense signals through coupling and antennas, leakage, RF chain and
receivers; the container refuses signals which are not lists of lists if the operators are separated, lines 807-821. -/
def RxDevice.finish (d : RxDevice) (s : Dense) (leak : Leaking) (count : ℕ) : Except Raised Processed :=
  match d.front s.a with
  | .error e => .error (.py e)
  | .ok a =>
    match leak.first with
    | .error e => .error (.py e)
    | .ok l =>
      match addLeakage ⟨a, s.rate, s.delay⟩ l with
      | .error e => .error (.py e)
      | .ok x =>
        match d.rf x.a with
        | .error e => .error (.py e)
        | .ok y =>
          match d.inputs y d.receivers with
          | .error e => .error (.py e)
          | .ok xs => if 0 < count ∧ d.separation = true then .error (.py .value) else .ok ⟨l, y, xs⟩

/-- The argument `impinging_signals`: signals, or the output of a device with its mixed signal and the number of emerging
signals. -/
inductive Impinging (M : ℕ) where
  | signals (l : List (Sparse M × Bool))
  | output (mixed : Dense) (emerging : ℕ)

/-- `process_from_realization`, lines 1832-1968.  Superpositions of less than two blocks become dense (1908-1910).  Others
stay sparse, and sparse signals cannot be received by antennas: `antenna_outputs[idx, :] = antenna.receive(stream)`
(`simulation/antennas.py` 322) assigns a sparse signal, which is not an array, so that `np.complex128(value)`
(`core/signal_model.py` 2215) raises a `TypeError`. -/
noncomputable def RxDevice.process (d : RxDevice) (trig : ℚ) (leak : Leaking) : Impinging M → Except Raised Processed
  | .output mixed k =>
    match synchronize d.rate trig mixed false with
    | .error e => .error e
    | .ok s => d.finish s leak k
  | .signals l =>
    match mixAll (emptySparse M d.rate d.carrier trig) l with
    | .error e => .error (.py e)
    | .ok (s, _) =>
      if s.blocks.length < 2 then
        match toDense s.blocks with
        | .error e => .error (.py e)
        | .ok cols =>
          match synchronize d.rate trig ⟨ofCols cols, s.rate, s.delay⟩ (decide (l ≠ [])) with
          | .error e => .error e
          | .ok s => d.finish s leak l.length
      else .error (.py .type)

/-! ### The superposition -/

/-- Samples by which a signal arrives after the trigger, negative if before. -/
def arrival (trig : ℚ) (a : Sparse M) : ℤ :=
  if trig > a.delay then -pyRound ((trig - a.delay) * a.rate) else pyRound ((a.delay - trig) * a.rate)

theorem shiftOf_eq (s a : Sparse M) : shiftOf s a = arrival s.delay a := rfl

theorem superimpose_ne (s a r a' : Sparse M) (sh : Bool) (h : s.superimpose a sh = .ok (r, a')) (hne : s.blocks ≠ []) :
    r.blocks ≠ [] := by
  have hadd : ∀ (bs : List (Block M)) (r : Sparse M), s.addAligned bs = .ok r → r.blocks ≠ [] := by
    intro bs r hr
    unfold Sparse.addAligned at hr
    split at hr
    · cases hr; exact hne
    · split at hr
      · cases hr
      · cases hx : superimposeBlocks s.blocks bs with
        | error e => rw [hx] at hr; cases hr
        | ok v =>
          rw [hx] at hr
          cases hr
          unfold superimposeBlocks at hx
          cases hy : (blocksUnion s.blocks bs).mapM (fun w => do
              let u ← addBlocks w.1 w.2 s.blocks (List.replicate (w.2 - w.1) 0)
              let u ← addBlocks w.1 w.2 bs u
              Except.ok (⟨w.1, u⟩ : Block M)) with
          | error e => rw [hy] at hx; cases hx
          | ok y =>
            rw [hy] at hx
            cases hx
            show (if y.length = 0 then [⟨0, []⟩] else y) ≠ []
            split
            · simp
            · rename_i hz
              intro h0
              rw [h0] at hz
              exact hz rfl
  unfold Sparse.superimpose at h
  split at h
  · dsimp only at h
    split at h
    · cases h; exact hne
    · cases hx : s.addAligned (getSlice id (some ((pyRound ((s.delay - a.delay) * a.rate)).toNat : Int)) none 1 a.blocks) with
      | error e => rw [hx] at h; cases h
      | ok v => rw [hx] at h; cases h; exact hadd _ _ hx
  · split at h
    · dsimp only at h
      cases hx : s.addAligned (a.blocks.map fun b => { b with offset := b.offset +
        (pyRound ((a.delay - s.delay) * a.rate)).toNat }) with
      | error e => rw [hx] at h; cases h
      | ok v => rw [hx] at h; cases h; exact hadd _ _ hx
    · cases hx : s.addAligned a.blocks with
      | error e => rw [hx] at h; cases h
      | ok v => rw [hx] at h; cases h; exact hadd _ _ hx

theorem mixAll_spec (hM : 0 < M) (l : List (Sparse M × Bool)) (s : Sparse M) (hs : WF s.blocks) (hne : s.blocks ≠ [])
    (hl : ∀ x ∈ l, WF x.1.blocks ∧ 0 ≤ x.1.rate) :
    ∃ r l', mixAll s l = .ok (r, l') ∧ WF r.blocks ∧ r.blocks ≠ [] ∧ r.rate = s.rate ∧ r.carrier = s.carrier ∧ r.delay = s.delay ∧
      ∀ t : ℕ, valueAt r.blocks t = valueAt s.blocks t + (l.map fun x => valueAt x.1.blocks (t - arrival s.delay x.1)).sum := by
  induction l generalizing s with
  | nil => exact ⟨s, [], rfl, hs, hne, rfl, rfl, rfl, by simp⟩
  | cons x l ih =>
    obtain ⟨a, sh⟩ := x
    obtain ⟨wa, ra⟩ := hl (a, sh) List.mem_cons_self
    obtain ⟨s1, a1, e1, w1, r1, c1, d1, v1⟩ := C22_superimpose_partial s a sh hM hs wa hne ra
    obtain ⟨r, l', e2, w2, n2, r2, c2, d2, v2⟩ := ih s1 w1 (superimpose_ne s a s1 a1 sh e1 hne)
      (fun y hy => hl y (List.mem_cons_of_mem _ hy))
    refine ⟨r, (a1, sh) :: l', by simp only [mixAll, e1, e2], w2, n2, r2.trans r1, c2.trans c1, d2.trans d1, fun t => ?_⟩
    rw [v2, v1, d1, List.map_cons, List.sum_cons, add_assoc, shiftOf_eq]

theorem emptySparse_blocks (rate carrier trig : ℚ) : (emptySparse M rate carrier trig).blocks = [⟨0, []⟩] := by
  simp [emptySparse, fromDense]

/-- C88: over all impinging signals the mixed signal is their sum, each at the instant at which it arrives relative to the
trigger, whatever arrived before the trigger cut; rate, carrier and delay are those of the device and its trigger. -/
theorem C88_mixed (hM : 0 < M) (rate carrier trig : ℚ) (l : List (Sparse M × Bool))
    (hl : ∀ x ∈ l, WF x.1.blocks ∧ 0 ≤ x.1.rate) :
    ∃ r l', mixAll (emptySparse M rate carrier trig) l = .ok (r, l') ∧ WF r.blocks ∧ r.rate = rate ∧ r.carrier = carrier ∧
      r.delay = trig ∧
      ∀ t : ℕ, valueAt r.blocks t = (l.map fun x => valueAt x.1.blocks (t - arrival trig x.1)).sum := by
  obtain ⟨r, l', e, w, -, h1, h2, h3, v⟩ := mixAll_spec hM l (emptySparse M rate carrier trig)
    (by rw [emptySparse_blocks]; simp [WF]) (by rw [emptySparse_blocks]; simp) hl
  refine ⟨r, l', e, w, h1, h2, h3, fun t => ?_⟩
  rw [v, emptySparse_blocks]
  have : valueAt ([⟨0, []⟩] : List (Block M)) t = 0 := by
    simp [valueAt, sumAt, Block.at]
  rw [this, zero_add]
  rfl

/-- A signal without delay relative to the trigger. -/
theorem synchronize_self (rate trig : ℚ) (d : Dense) (h : d.delay = trig) (h0 : 0 ≤ trig) (b : Bool) :
    synchronize rate trig d b = .ok d := by
  unfold synchronize
  have hz : truncInt (((trig - d.delay) * rate : ℚ) : ℝ) = 0 := by
    rw [h, sub_self, zero_mul]
    have := truncInt_int 0
    simpa using this
  simp only [hz]
  rw [if_neg (by omega), if_neg (by omega)]
  simp only [Int.cast_zero, zero_mul, sub_zero]
  rw [if_neg (by rw [h]; exact not_lt.mpr h0)]

theorem ofCols_get (cols : List (Col M)) (m : Fin M) (n : ℕ) : (ofCols cols).get m n = sample cols n m := by
  unfold ofCols Arr.get sample
  by_cases h : n < cols.length
  · simp [h, m.isLt]
  · simp [h]

/-- C88 without separated operators, for signals whose superposition has no gap: after the front-end was given the sum of
all impinging signals at the instants they arrive after the trigger, and if front-end and RF chain accept what they are
given, the device's baseband signal is what they make of it, and the operators get their inputs of it.  Missing for the
full claim: gaps, see `C88_gap_fails`, separated operators, see `C88_separation_fails`, and outputs of other devices, see
`C88_late_fails` and `C88_early_fails`. -/
theorem C88_reception_partial (d : RxDevice) (hsep : d.separation = false) (hM : 0 < M) (trig : ℚ) (h0 : 0 ≤ trig)
    (l : List (Sparse M × Bool)) (hl : ∀ x ∈ l, WF x.1.blocks ∧ 0 ≤ x.1.rate) (r : Sparse M) (l' : List (Sparse M × Bool))
    (hr : mixAll (emptySparse M d.rate d.carrier trig) l = .ok (r, l')) (hb : r.blocks.length < 2) :
    ∃ x : Arr, x.M = M ∧ (∀ (m : Fin M) (t : ℕ), x.get m t = (l.map fun a => valueAt a.1.blocks (t - arrival trig a.1) m).sum) ∧
      ∀ a y ins, d.front x = .ok a → d.rf a = .ok y → d.inputs y d.receivers = .ok ins →
        d.process trig .absent (.signals l) = .ok ⟨none, y, ins⟩ := by
  obtain ⟨r2, l2, e, w, h1, h2, h3, v⟩ := C88_mixed hM d.rate d.carrier trig l hl
  obtain ⟨rfl, rfl⟩ := Prod.mk.inj (Except.ok.inj (hr.symm.trans e))
  obtain ⟨cols, hc, hlen, hs⟩ := toDense_spec r.blocks w
  refine ⟨ofCols cols, rfl, fun m t => ?_, fun a y ins ha hy hi => ?_⟩
  · rw [ofCols_get, hs]
    have := v t
    rw [show valueAt r.blocks (t : ℤ) = sumAt r.blocks t by simp [valueAt]] at this
    rw [this]
    induction l with
    | nil => simp
    | cons x l _ =>
      have gen : ∀ L : List (Col M), (L.sum) m = (L.map (· m)).sum := by
        intro L
        induction L with
        | nil => rfl
        | cons a L ih => simp [ih]
      rw [gen, List.map_map]
      rfl
  · have hsync := synchronize_self d.rate trig ⟨ofCols cols, r.rate, r.delay⟩ h3 h0 (decide (l ≠ []))
    simp only [RxDevice.process, hr, hb, if_true, hc, hsync, RxDevice.finish, ha, Leaking.first, addLeakage, hy, hi, hsep,
      Bool.false_eq_true, and_false, if_false]

/-- C88: leakage is added to what the antennas receive, at the instant it occurs, if it starts no later than the trigger. -/
theorem C88_leakage_partial (d : RxDevice) (hsep : d.separation = false) (s v : Dense) (a : Arr) (ha : d.front s.a = .ok a)
    (hM : 0 < a.M) (hN : 0 < a.N) (hv : v.a.M = a.M) (hd : v.delay ≤ s.delay) (hr : 0 ≤ v.rate) (count : ℕ) :
    ∃ k : ℕ, (k : ℤ) = pyRound ((s.delay - v.delay) * v.rate) ∧ ∃ x : Arr, x.M = a.M ∧
      (∀ m n, x.get m n = a.get m n + v.a.get m (n + k)) ∧
      ∀ y ins, d.rf x = .ok y → d.inputs y d.receivers = .ok ins → d.finish s (.one v) count = .ok ⟨some v, y, ins⟩ := by
  obtain ⟨k, hk, r, hsup, -, -, hrM, -, hget⟩ := C25_superimpose_partial ⟨a, s.rate, s.delay⟩ v hM hN hv hd hr
  refine ⟨k, hk, r.a, hrM, hget, fun y ins hy hi => ?_⟩
  simp only [RxDevice.finish, ha, Leaking.first, addLeakage, hsup, hy, hi, hsep, Bool.false_eq_true, and_false, if_false]

/-- C88: every receiver of a reception gets the streams it selected, in order, of the same decoded and noisy signal, and
all of them if it selected none. -/
theorem C88_receivers (d : RxDevice) (y : Arr) (ps : List (Option (List ℤ))) (ins : List Arr)
    (h : d.inputs y ps = .ok ins) :
    ins.length = ps.length ∧ ∀ (k : ℕ) (p : Option (List ℤ)) (x : Arr), ps[k]? = some p → ins[k]? = some x →
      ∃ z, d.decode (d.noise y) = .ok z ∧ x.N = z.N ∧ (p = none → x = z) ∧
        ∀ sel, p = some sel → x.M = sel.length ∧
          ∀ (m : ℕ) (i : ℤ), sel[m]? = some i → ∃ j : ℕ, j < z.M ∧ ((j : ℤ) = i ∨ (j : ℤ) = i + z.M) ∧ ∀ n, x.get m n = z.get j n := by
  induction ps generalizing ins with
  | nil => cases h; exact ⟨rfl, by simp⟩
  | cons p ps ih =>
    simp only [RxDevice.inputs] at h
    cases hp : d.input y p with
    | error e => rw [hp] at h; cases h
    | ok x =>
      rw [hp] at h
      cases hps : d.inputs y ps with
      | error e => rw [hps] at h; cases h
      | ok xs =>
        rw [hps] at h
        cases h
        obtain ⟨hlen, hall⟩ := ih xs hps
        refine ⟨by simp [hlen], fun k q w hk hw => ?_⟩
        cases k with
        | succ k => exact hall k q w (by simpa using hk) (by simpa using hw)
        | zero =>
          simp at hk hw
          subst hk hw
          unfold RxDevice.input at hp
          cases hz : d.decode (d.noise y) with
          | error e => rw [hz] at hp; cases hp
          | ok z =>
            rw [hz] at hp
            refine ⟨z, rfl, ?_⟩
            cases p with
            | none => cases hp; exact ⟨rfl, fun _ => rfl, by simp⟩
            | some l =>
              simp only [selectRows] at hp
              split at hp
              · rename_i hl
                cases hp
                refine ⟨rfl, by simp, fun sel hsel => ?_⟩
                cases hsel
                refine ⟨rfl, fun m i hm => ?_⟩
                have hml : m < l.length := (List.getElem?_eq_some_iff.mp hm).1
                obtain ⟨hi1, hi2⟩ := hl i (List.mem_of_getElem? hm)
                have hzM : (0 : ℤ) < z.M := by omega
                have hmod1 := Int.emod_nonneg i (by omega : (z.M : ℤ) ≠ 0)
                have hmod2 := Int.emod_lt_of_pos i hzM
                refine ⟨(i % (z.M : ℤ)).toNat, by omega, ?_, fun n => ?_⟩
                · rw [Int.toNat_of_nonneg hmod1]
                  by_cases hneg : i < 0
                  · right
                    rw [← Int.add_emod_right, Int.emod_eq_of_lt (by omega) (by omega)]
                  · left
                    exact Int.emod_eq_of_lt (by omega) hi2
                · unfold Arr.get
                  dsimp only
                  rw [hm]
                  have hj : (i % (z.M : ℤ)).toNat < z.M := by omega
                  by_cases hn : n < z.N
                  · rw [if_pos ⟨hml, hn⟩, if_pos ⟨hj, hn⟩]
                    rfl
                  · rw [if_neg (by omega), if_neg (by omega)]
              · cases hp

/-- C88: ports the signal does not have raise an `IndexError`. -/
theorem C88_ports (d : RxDevice) (y z : Arr) (hz : d.decode (d.noise y) = .ok z) (sel : List ℤ) (i : ℤ) (hi : i ∈ sel)
    (hbad : i < -z.M ∨ (z.M : ℤ) ≤ i) (ps : List (Option (List ℤ))) : d.inputs y (some sel :: ps) = .error .index := by
  have : ¬ ∀ i ∈ sel, -(z.M : ℤ) ≤ i ∧ i < z.M := fun h => by
    have := h i hi
    omega
  simp only [RxDevice.inputs, RxDevice.input, hz, selectRows, if_neg this]

/-- C88: outputs of other devices which start at the trigger are received as they are. -/
theorem C88_output_partial (d : RxDevice) (trig : ℚ) (h0 : 0 ≤ trig) (mixed : Dense) (h : mixed.delay = trig) (leak : Leaking)
    (k : ℕ) : d.process (M := M) trig leak (.output mixed k) = d.finish mixed leak k := by
  simp only [RxDevice.process, synchronize_self d.rate trig mixed h h0]

/-- C88: superimposing leaves signals alone which are dense or not later than the trigger, so that they can be received
again. -/
theorem C88_again_partial (l : List (Sparse M × Bool)) (s r : Sparse M) (l' : List (Sparse M × Bool)) (trig : ℚ)
    (hM : 0 < M) (hs : WF s.blocks) (hne : s.blocks ≠ []) (hl : ∀ x ∈ l, WF x.1.blocks ∧ 0 ≤ x.1.rate) (hd : s.delay = trig)
    (h : mixAll s l = .ok (r, l')) (hk : ∀ x ∈ l, x.2 = false ∨ x.1.delay ≤ trig) : l' = l := by
  induction l generalizing s l' with
  | nil => cases h; rfl
  | cons x l ih =>
    obtain ⟨a, sh⟩ := x
    obtain ⟨wa, ra⟩ := hl (a, sh) List.mem_cons_self
    obtain ⟨s1, a1, e1, w1, -, -, d1, -⟩ := C22_superimpose_partial s a sh hM hs wa hne ra
    simp only [mixAll, e1] at h
    have ha := C22_argument_partial s a sh s1 a1 e1 (by rw [hd]; exact hk (a, sh) List.mem_cons_self)
    cases h2 : mixAll s1 l with
    | error e => rw [h2] at h; cases h
    | ok y =>
      obtain ⟨r2, l2⟩ := y
      rw [h2] at h
      cases h
      rw [ih s1 l2 w1 (superimpose_ne s a s1 a1 sh e1 hne) (fun y hy => hl y (List.mem_cons_of_mem _ hy)) (d1.trans hd) h2
        (fun y hy => hk y (List.mem_cons_of_mem _ hy)), ha]

/-! ### What is false of the code -/

theorem mem_covered_superimposeBlocks (a b r : List (Block M)) (ha : WF a) (hb : WF b) (h : superimposeBlocks a b = .ok r) (t : ℕ) :
    t ∈ covered r ↔ t ∈ covered a ∨ t ∈ covered b := by
  obtain ⟨h1, h2, h3⟩ := windows_spec _ (union1d_sorted (covered a) (covered b))
  have hm := mapM_windows a b ha hb (blocksUnion a b) h1
  unfold superimposeBlocks at h
  rw [hm] at h
  have hcov : ∀ (F : ℕ → Col M) (ws : List (ℕ × ℕ)), (∀ w ∈ ws, w.1 < w.2) →
      (t ∈ covered (showing F 0 ws) ↔ ∃ w ∈ ws, w.1 ≤ t ∧ t < w.2) := by
    intro F ws hw
    rw [mem_covered]
    unfold showing
    constructor
    · rintro ⟨c, hc, k1, k2⟩
      obtain ⟨w, hw', rfl⟩ := List.mem_map.mp hc
      have := hw w hw'
      refine ⟨w, hw', ?_⟩
      simp [Block.stop] at k1 k2
      omega
    · rintro ⟨w, hw', k1, k2⟩
      refine ⟨_, List.mem_map.mpr ⟨w, hw', rfl⟩, ?_⟩
      simp [Block.stop]
      omega
  have hu : t ∈ union1d (covered a) (covered b) ↔ ∃ w ∈ blocksUnion a b, w.1 ≤ t ∧ t < w.2 := h3 t
  rw [mem_union1d] at hu
  have hr : r = if (showing (fun t => sumAt a t + sumAt b t) 0 (blocksUnion a b)).length = 0 then [⟨0, []⟩]
      else showing (fun t => sumAt a t + sumAt b t) 0 (blocksUnion a b) := (Except.ok.inj h).symm
  rw [hu, ← hcov (fun t => sumAt a t + sumAt b t) (blocksUnion a b) h1]
  rw [hr]
  split
  · rename_i hz
    rw [List.length_eq_zero_iff.mp hz]
    simp [covered]
  · rfl

theorem superimpose_covered (hM : 0 < M) (s a r a' : Sparse M) (sh : Bool) (h : s.superimpose a sh = .ok (r, a')) (hs : WF s.blocks)
    (ha : WF a.blocks) (hr : 0 ≤ a.rate) (hd : s.delay ≤ a.delay) (t : ℕ) :
    t ∈ covered r.blocks ↔ t ∈ covered s.blocks ∨ ∃ u ∈ covered a.blocks, (t : ℤ) = u + arrival s.delay a := by
  have hadd : ∀ (bs : List (Block M)) (v : Sparse M), WF bs → s.addAligned bs = .ok v →
      (t ∈ covered v.blocks ↔ t ∈ covered s.blocks ∨ t ∈ covered bs) := by
    intro bs v hbs hv
    unfold Sparse.addAligned at hv
    split at hv
    · rename_i hz
      cases hv
      have : bs = [] := List.length_eq_zero_iff.mp (by omega)
      simp [this, covered]
    · split at hv
      · cases hv
      · cases hx : superimposeBlocks s.blocks bs with
        | error e => rw [hx] at hv; cases hv
        | ok w =>
          rw [hx] at hv
          cases hv
          exact mem_covered_superimposeBlocks s.blocks bs w hs hbs hx t
  have hnn := pyRound_nonneg (x := (a.delay - s.delay) * a.rate) (mul_nonneg (by linarith) hr)
  have harr : arrival s.delay a = pyRound ((a.delay - s.delay) * a.rate) := if_neg (not_lt.mpr hd)
  unfold Sparse.superimpose at h
  rw [if_neg (not_lt.mpr hd)] at h
  split at h
  · dsimp only at h
    obtain ⟨n, hn⟩ := Int.eq_ofNat_of_zero_le hnn
    rw [harr, hn]
    rw [hn] at h
    simp only [Int.toNat_natCast] at h
    cases hx : s.addAligned (a.blocks.map fun b => { b with offset := b.offset + n }) with
    | error e => rw [hx] at h; cases h
    | ok v =>
      rw [hx] at h
      cases h
      rw [hadd _ _ (shift_wf a.blocks n ha) hx]
      apply or_congr Iff.rfl
      rw [mem_covered]
      constructor
      · rintro ⟨c, hc, h1, h2⟩
        obtain ⟨b, hb, rfl⟩ := List.mem_map.mp hc
        refine ⟨t - n, (mem_covered _ _).mpr ⟨b, hb, ?_⟩, ?_⟩
        · simp only [Block.stop] at h1 h2 ⊢; omega
        · simp only at h1; omega
      · rintro ⟨u, hu, he⟩
        obtain ⟨b, hb, h1, h2⟩ := (mem_covered _ _).mp hu
        refine ⟨_, List.mem_map.mpr ⟨b, hb, rfl⟩, ?_⟩
        simp only [Block.stop] at h1 h2 ⊢; omega
  · rename_i hlt
    have hz : a.delay - s.delay = 0 := by linarith
    rw [harr, hz, zero_mul, pyRound_zero]
    cases hx : s.addAligned a.blocks with
    | error e => rw [hx] at h; cases h
    | ok v =>
      rw [hx] at h
      cases h
      rw [hadd _ _ ha hx]
      apply or_congr Iff.rfl
      constructor
      · exact fun h => ⟨t, h, by simp⟩
      · rintro ⟨u, hu, he⟩
        have : t = u := by omega
        rw [this]; exact hu

theorem mixAll_covered (hM : 0 < M) (l : List (Sparse M × Bool)) (s r : Sparse M) (l' : List (Sparse M × Bool))
    (h : mixAll s l = .ok (r, l')) (hs : WF s.blocks) (hne : s.blocks ≠ [])
    (hl : ∀ x ∈ l, WF x.1.blocks ∧ 0 ≤ x.1.rate ∧ s.delay ≤ x.1.delay) (t : ℕ) :
    t ∈ covered r.blocks ↔
      t ∈ covered s.blocks ∨ ∃ x ∈ l, ∃ u ∈ covered x.1.blocks, (t : ℤ) = u + arrival s.delay x.1 := by
  induction l generalizing s l' with
  | nil => cases h; simp
  | cons x l ih =>
    obtain ⟨a, sh⟩ := x
    obtain ⟨wa, ra, da⟩ := hl (a, sh) List.mem_cons_self
    obtain ⟨s1, a1, e1, w1, -, -, d1, -⟩ := C22_superimpose_partial s a sh hM hs wa hne ra
    simp only [mixAll, e1] at h
    cases h2 : mixAll s1 l with
    | error e => rw [h2] at h; cases h
    | ok y =>
      obtain ⟨r2, l2⟩ := y
      rw [h2] at h
      cases h
      rw [ih s1 l2 h2 w1 (superimpose_ne s a s1 a1 sh e1 hne) (fun y hy => by
          rw [d1]; exact hl y (List.mem_cons_of_mem _ hy)),
        superimpose_covered hM s a s1 a1 sh e1 hs wa ra da, d1, or_assoc]
      apply or_congr Iff.rfl
      constructor
      · rintro (⟨u, hu, he⟩ | ⟨x, hx, hh⟩)
        · exact ⟨(a, sh), List.mem_cons_self, u, hu, he⟩
        · exact ⟨x, List.mem_cons_of_mem _ hx, hh⟩
      · rintro ⟨x, hx, u, hu, he⟩
        rcases List.mem_cons.mp hx with rfl | hx
        · exact .inl ⟨u, hu, he⟩
        · exact .inr ⟨x, hx, u, hu, he⟩

/-- At most one block, or blocks which do not touch. -/
def Tidy (bs : List (Block M)) : Prop := bs.length < 2 ∨ Separated bs

theorem superimpose_tidy (s a r a' : Sparse M) (sh : Bool) (h : s.superimpose a sh = .ok (r, a')) (hs : WF s.blocks)
    (ht : Tidy s.blocks) (ha : WF a.blocks) (hd : s.delay ≤ a.delay) : Tidy r.blocks := by
  have hadd : ∀ (bs : List (Block M)) (v : Sparse M), WF bs → s.addAligned bs = .ok v → Tidy v.blocks := by
    intro bs v hbs hv
    unfold Sparse.addAligned at hv
    split at hv
    · cases hv; exact ht
    · split at hv
      · cases hv
      · obtain ⟨w, hw, -, hsep, -⟩ := superimposeBlocks_spec s.blocks bs hs hbs
        rw [hw] at hv
        cases hv
        by_cases hc : covered s.blocks ++ covered bs = []
        · left
          obtain ⟨h1, h2⟩ := List.append_eq_nil_iff.mp hc
          unfold superimposeBlocks blocksUnion at hw
          rw [h1, h2] at hw
          have hz : windows (union1d [] []) = [] := by simp [union1d, windows, winStarts, winStops, gaps]
          rw [hz] at hw
          cases hw
          simp
        · exact .inr (hsep hc)
  unfold Sparse.superimpose at h
  rw [if_neg (not_lt.mpr hd)] at h
  split at h
  · dsimp only at h
    cases hx : s.addAligned (a.blocks.map fun b => { b with offset := b.offset +
        (pyRound ((a.delay - s.delay) * a.rate)).toNat }) with
    | error e => rw [hx] at h; cases h
    | ok v => rw [hx] at h; cases h; exact hadd _ _ (shift_wf _ _ ha) hx
  · cases hx : s.addAligned a.blocks with
    | error e => rw [hx] at h; cases h
    | ok v => rw [hx] at h; cases h; exact hadd _ _ ha hx

theorem mixAll_tidy (hM : 0 < M) (l : List (Sparse M × Bool)) (s r : Sparse M) (l' : List (Sparse M × Bool))
    (h : mixAll s l = .ok (r, l')) (hs : WF s.blocks) (hne : s.blocks ≠ []) (ht : Tidy s.blocks)
    (hl : ∀ x ∈ l, WF x.1.blocks ∧ 0 ≤ x.1.rate ∧ s.delay ≤ x.1.delay) : Tidy r.blocks := by
  induction l generalizing s l' with
  | nil => cases h; exact ht
  | cons x l ih =>
    obtain ⟨a, sh⟩ := x
    obtain ⟨wa, ra, da⟩ := hl (a, sh) List.mem_cons_self
    obtain ⟨s1, a1, e1, w1, -, -, d1, -⟩ := C22_superimpose_partial s a sh hM hs wa hne ra
    simp only [mixAll, e1] at h
    cases h2 : mixAll s1 l with
    | error e => rw [h2] at h; cases h
    | ok y =>
      obtain ⟨r2, l2⟩ := y
      rw [h2] at h
      cases h
      exact ih s1 l2 h2 w1 (superimpose_ne s a s1 a1 sh e1 hne) (superimpose_tidy s a s1 a1 sh e1 hs ht wa da) (fun y hy => by
          rw [d1]; exact hl y (List.mem_cons_of_mem _ hy))

/-- C88: the superposition has less than two blocks, as `C88_reception_partial` asks for, if no signal arrives before the
trigger and any instant between two at which signals arrive is one at which a signal arrives. -/
theorem C88_contiguous (hM : 0 < M) (rate carrier trig : ℚ) (l : List (Sparse M × Bool))
    (hl : ∀ x ∈ l, WF x.1.blocks ∧ 0 ≤ x.1.rate ∧ trig ≤ x.1.delay)
    (hg : ∀ p g q : ℕ, p < g → g < q →
      (∃ x ∈ l, ∃ u ∈ covered x.1.blocks, (p : ℤ) = u + arrival trig x.1) →
      (∃ x ∈ l, ∃ u ∈ covered x.1.blocks, (q : ℤ) = u + arrival trig x.1) →
      ∃ x ∈ l, ∃ u ∈ covered x.1.blocks, (g : ℤ) = u + arrival trig x.1) :
    ∃ r l', mixAll (emptySparse M rate carrier trig) l = .ok (r, l') ∧ r.blocks.length < 2 := by
  obtain ⟨r, l', e, w, -, -, h3, -⟩ := C88_mixed hM rate carrier trig l (fun x hx => ⟨(hl x hx).1, (hl x hx).2.1⟩)
  have he := emptySparse_blocks (M := M) rate carrier trig
  have hcov : ∀ t : ℕ, t ∈ covered r.blocks ↔ ∃ x ∈ l, ∃ u ∈ covered x.1.blocks, (t : ℤ) = u + arrival trig x.1 := by
    intro t
    rw [mixAll_covered hM l _ r l' e (by rw [he]; simp [WF]) (by rw [he]; simp) hl, he]
    simp only [covered, List.flatMap_cons, List.length_nil, List.range_zero, List.map_nil, List.flatMap_nil, List.append_nil,
      List.not_mem_nil, false_or]
    rfl
  refine ⟨r, l', e, ?_⟩
  rcases mixAll_tidy hM l _ r l' e (by rw [he]; simp [WF]) (by rw [he]; simp) (.inl (by rw [he]; simp)) hl with h | ⟨hp, hn⟩
  · exact h
  · match hrb : r.blocks with
    | [] => simp
    | [b] => simp
    | b :: c :: bs =>
      exfalso
      rw [hrb] at hp hn
      have hb := List.length_pos_of_ne_nil (hn b List.mem_cons_self)
      have hc := List.length_pos_of_ne_nil (hn c (List.mem_cons_of_mem _ List.mem_cons_self))
      obtain ⟨hp1, hp2⟩ := List.pairwise_cons.mp hp
      have hbc := hp1 c List.mem_cons_self
      have hin : b.stop ∈ covered r.blocks := by
        by_cases hlt : b.stop < c.offset
        · refine (hcov _).mpr (hg (b.stop - 1) b.stop c.offset ?_ hlt ((hcov _).mp ?_) ((hcov _).mp ?_))
          · simp only [Block.stop]; omega
          · rw [hrb, mem_covered]
            exact ⟨b, List.mem_cons_self, by simp only [Block.stop]; omega, by simp only [Block.stop]; omega⟩
          · rw [hrb, mem_covered]
            exact ⟨c, List.mem_cons_of_mem _ List.mem_cons_self, le_refl _, by simp only [Block.stop]; omega⟩
        · exact absurd hbc hlt
      rw [hrb, mem_covered] at hin
      obtain ⟨x, hx, h1, h2⟩ := hin
      rcases List.mem_cons.mp hx with rfl | hx
      · omega
      · have := hp1 x hx
        omega

/-- C88 fails for signals with a gap between them: if signals arrive at instants `p` and `q` and none at an instant in
between, the reception raises a `TypeError`. -/
theorem C88_gap_fails (d : RxDevice) (hM : 0 < M) (trig : ℚ) (leak : Leaking) (l : List (Sparse M × Bool))
    (hl : ∀ x ∈ l, WF x.1.blocks ∧ 0 ≤ x.1.rate ∧ trig ≤ x.1.delay) (p g q : ℕ) (hpg : p < g) (hgq : g < q)
    (hp : ∃ x ∈ l, ∃ u ∈ covered x.1.blocks, (p : ℤ) = u + arrival trig x.1)
    (hq : ∃ x ∈ l, ∃ u ∈ covered x.1.blocks, (q : ℤ) = u + arrival trig x.1)
    (hg : ¬ ∃ x ∈ l, ∃ u ∈ covered x.1.blocks, (g : ℤ) = u + arrival trig x.1) :
    d.process trig leak (.signals l) = .error (.py .type) := by
  obtain ⟨r, l', e, w, -, -, h3, -⟩ := C88_mixed hM d.rate d.carrier trig l (fun x hx => ⟨(hl x hx).1, (hl x hx).2.1⟩)
  have hcov := mixAll_covered hM l _ r l' e (by rw [emptySparse_blocks]; simp [WF]) (by rw [emptySparse_blocks]; simp) hl
  have hemp : ∀ t, t ∉ covered (emptySparse M d.rate d.carrier trig).blocks := by
    intro t
    rw [emptySparse_blocks]
    simp [covered]
  have hp' := (hcov p).mpr (.inr hp)
  have hq' := (hcov q).mpr (.inr hq)
  have hg' : g ∉ covered r.blocks := fun h => ((hcov g).mp h).elim (hemp g) hg
  have hb : ¬ r.blocks.length < 2 := by
    intro hlt
    match hrb : r.blocks, hlt with
    | [], _ => rw [hrb] at hp'; simp [covered] at hp'
    | [b], _ =>
      rw [hrb, mem_covered] at hp' hq' hg'
      simp only [List.mem_singleton, exists_eq_left] at hp' hq' hg'
      exact hg' ⟨by omega, by omega⟩
  simp only [RxDevice.process, e, hb, if_false]

/-- C88 fails for separated operators: nothing can be received. -/
theorem C88_separation_fails (d : RxDevice) (hsep : d.separation = true) (trig : ℚ) (leak : Leaking) (l : List (Sparse M × Bool))
    (hl : l ≠ []) : ∀ p, d.process trig leak (.signals l) ≠ .ok p := by
  have hfin : ∀ (s : Dense) (n : ℕ) (p : Processed), 0 < n → d.finish s leak n ≠ .ok p := by
    intro s n p hn h
    unfold RxDevice.finish at h
    repeat' split at h
    all_goals first | (rename_i hc; exact hc ⟨hn, hsep⟩) | cases h
  intro p h
  simp only [RxDevice.process] at h
  repeat' split at h
  all_goals first | cases h | exact hfin _ _ p (List.length_pos_of_ne_nil hl) h

/-- C88 fails for the leakage of several operators: only the first leaking signal is received, and a list without any
raises an `IndexError`. -/
theorem C88_leakage_fails (d : RxDevice) (trig : ℚ) (x : Impinging M) (v : Dense) (vs : List Dense) :
    d.process trig (.many (v :: vs)) x = d.process trig (.one v) x ∧
      ∀ (s : Dense) (a : Arr) (n : ℕ), d.front s.a = .ok a → d.finish s (.many []) n = .error (.py .index) := by
  refine ⟨?_, fun s a n ha => by simp only [RxDevice.finish, ha, Leaking.first]⟩
  have hfin : ∀ (s : Dense) (n : ℕ), d.finish s (.many (v :: vs)) n = d.finish s (.one v) n := fun _ _ => rfl
  cases x <;> simp only [RxDevice.process, hfin]

/-- C88 fails for outputs of other devices which start a sample or more before the trigger: if they start at less seconds
than the sampling rate has hertz, for example at zero, the reception raises a `ValueError`. -/
theorem C88_late_fails (d : RxDevice) (trig : ℚ) (mixed : Dense) (hd : mixed.delay < d.rate) (hr : 0 < d.rate)
    (h : 1 ≤ (trig - mixed.delay) * d.rate) (leak : Leaking) (k : ℕ) :
    d.process (M := M) trig leak (.output mixed k) = .error (.py .value) := by
  have hn : 1 ≤ truncInt (((trig - mixed.delay) * d.rate : ℚ) : ℝ) := by
    have h' : (1 : ℝ) ≤ (((trig - mixed.delay) * d.rate : ℚ) : ℝ) := by exact_mod_cast h
    unfold truncInt
    rw [if_pos (by linarith)]
    exact Int.le_floor.mpr (by exact_mod_cast h')
  have hs : synchronize d.rate trig mixed false = .error (.py .value) := by
    unfold synchronize
    generalize truncInt (((trig - mixed.delay) * d.rate : ℚ) : ℝ) = n at hn
    simp only
    rw [if_pos (by omega)]
    simp only
    rw [if_pos]
    have : (1 : ℚ) ≤ n := by exact_mod_cast hn
    nlinarith
  simp only [RxDevice.process, hs]

/-- C88: outputs of other devices which start a whole number of samples before the trigger, and so late that they are
received at all, lose exactly these samples.  Missing: the delay of what is left should be the trigger. -/
theorem C88_trim_partial (d : RxDevice) (hr : 0 < d.rate) (trig : ℚ) (mixed : Dense) (n : ℕ) (h : trig = mixed.delay + n / d.rate)
    (hd : n * d.rate ≤ mixed.delay) (leak : Leaking) (k : ℕ) :
    d.process (M := M) trig leak (.output mixed k)
      = d.finish ⟨⟨mixed.a.M, mixed.a.N - n, fun i j => mixed.a.x i (j + n)⟩, mixed.rate, mixed.delay - n * d.rate⟩ leak k := by
  have ht : (trig - mixed.delay) * d.rate = n := by
    rw [h]
    field_simp
    ring
  have hn : truncInt (((trig - mixed.delay) * d.rate : ℚ) : ℝ) = n := by
    rw [ht]
    unfold truncInt
    rw [if_pos (by positivity)]
    simp
  have hs : synchronize d.rate trig mixed false
      = .ok ⟨⟨mixed.a.M, mixed.a.N - n, fun i j => mixed.a.x i (j + n)⟩, mixed.rate, mixed.delay - n * d.rate⟩ := by
    unfold synchronize
    rw [hn]
    have h1 : ¬mixed.delay - ((n : ℤ) : ℚ) * d.rate < 0 := by push_cast; linarith
    rcases Nat.eq_zero_or_pos n with rfl | hp
    · simpa using h1
    · simp only
      rw [if_pos (by omega)]
      simp only
      rw [if_neg h1]
      simp [Arr.dropCols]
  simp only [RxDevice.process, hs]

example : (10 : ℚ) = (8 : ℚ) + (1 : ℕ) / (1 / 2) ∧ (1 : ℕ) * (1 / 2 : ℚ) ≤ 8 := by norm_num

/-- C88 fails for outputs of other devices which start a sample or more after the trigger: the reception raises an
`UnboundLocalError`. -/
theorem C88_early_fails (d : RxDevice) (trig : ℚ) (mixed : Dense) (h : 1 ≤ (mixed.delay - trig) * d.rate) (leak : Leaking) (k : ℕ) :
    d.process (M := M) trig leak (.output mixed k) = .error .unbound := by
  have hn : truncInt (((trig - mixed.delay) * d.rate : ℚ) : ℝ) < 0 := by
    have h' : (((trig - mixed.delay) * d.rate : ℚ) : ℝ) ≤ -1 := by
      have : (trig - mixed.delay) * d.rate ≤ -1 := by linarith
      exact_mod_cast this
    unfold truncInt
    rw [if_neg (by linarith)]
    have : ⌈(((trig - mixed.delay) * d.rate : ℚ) : ℝ)⌉ ≤ -1 := Int.ceil_le.mpr (by exact_mod_cast h')
    omega
  have hs : synchronize d.rate trig mixed false = .error .unbound := by
    unfold synchronize
    generalize truncInt (((trig - mixed.delay) * d.rate : ℚ) : ℝ) = n at hn
    simp only
    rw [if_neg (by omega), if_pos hn]
    rfl
  simp only [RxDevice.process, hs]

/-- C88 fails for sparse signals later than the trigger which are received again: the first reception displaces the signal
itself, so that the second one gets it at twice its delay. -/
theorem C88_again_fails (hM : 0 < M) (rate carrier trig : ℚ) (a : Sparse M) (ha : WF a.blocks) (hr : 0 ≤ a.rate)
    (hd : trig < a.delay) :
    ∃ r l' r' l'', mixAll (emptySparse M rate carrier trig) [(a, true)] = .ok (r, l') ∧
      mixAll (emptySparse M rate carrier trig) l' = .ok (r', l'') ∧
      ∀ t : ℕ, valueAt r.blocks t = valueAt a.blocks (t - arrival trig a) ∧
        valueAt r'.blocks t = valueAt a.blocks (t - 2 * arrival trig a) := by
  have hnn := pyRound_nonneg (x := (a.delay - trig) * a.rate) (mul_nonneg (by linarith) hr)
  obtain ⟨n, hn⟩ := Int.eq_ofNat_of_zero_le hnn
  have harr : arrival trig a = n := (if_neg (not_lt.mpr hd.le)).trans hn
  obtain ⟨r, l', e, -, -, -, -, v⟩ := C88_mixed hM rate carrier trig [(a, true)] (by simpa using ⟨ha, hr⟩)
  have hl' : l' = [({ a with blocks := a.blocks.map fun b => { b with offset := b.offset + n } }, true)] := by
    have hsup : ∃ s1, (emptySparse M rate carrier trig).superimpose a true =
        .ok (s1, { a with blocks := a.blocks.map fun b => { b with offset := b.offset + n } }) := by
      have h1 : ¬ (emptySparse M rate carrier trig).delay > a.delay := not_lt.mpr hd.le
      have h2 : (emptySparse M rate carrier trig).delay < a.delay := hd
      obtain ⟨s1, e1, -⟩ := addAligned_spec (emptySparse M rate carrier trig) (a.blocks.map fun b => { b with offset := b.offset + n })
        hM (by rw [emptySparse_blocks]; simp [WF]) (by rw [emptySparse_blocks]; simp) (shift_wf a.blocks n ha)
      refine ⟨s1, ?_⟩
      unfold Sparse.superimpose
      rw [if_neg h1, if_pos h2]
      have : pyRound ((a.delay - (emptySparse M rate carrier trig).delay) * a.rate) = n := hn
      simp only [this, Int.toNat_natCast, e1, bind, Except.bind, if_true]
    obtain ⟨s1, hs1⟩ := hsup
    simp only [mixAll, hs1] at e
    exact (Prod.mk.inj (Except.ok.inj e)).2.symm
  obtain ⟨r', l'', e', -, -, -, -, v'⟩ := C88_mixed hM rate carrier trig l' (by rw [hl']; simpa using ⟨shift_wf a.blocks n ha, hr⟩)
  refine ⟨r, l', r', l'', e, e', fun t => ⟨by simpa using v t, ?_⟩⟩
  rw [v', hl']
  simp only [List.map_cons, List.map_nil, List.sum_cons, List.sum_nil, add_zero]
  have harr' : arrival trig ({ a with blocks := a.blocks.map fun b => { b with offset := b.offset + n } } : Sparse M) = n := harr
  rw [harr', harr]
  unfold valueAt
  by_cases h1 : (0 : ℤ) ≤ t - n
  · rw [if_pos h1, shift_at]
    by_cases h2 : (0 : ℤ) ≤ t - 2 * n
    · rw [if_pos h2, if_pos (by omega)]
      congr 1
      omega
    · rw [if_neg h2, if_neg (by omega)]
  · rw [if_neg h1, if_neg (by omega)]

/-! ### Examples -/

/-- Two samples, and one sample arriving three samples after the trigger. -/
def demoPair : List (Sparse 1 × Bool) := [(⟨[⟨0, [![1], ![2]]⟩], 1, 0, 0⟩, false), (⟨[⟨0, [![5]]⟩], 1, 0, 3⟩, false)]

/-- The pair has a gap at the third sample. -/
example : (∀ x ∈ demoPair, WF x.1.blocks ∧ 0 ≤ x.1.rate ∧ (0 : ℚ) ≤ x.1.delay) ∧
    (∃ x ∈ demoPair, ∃ u ∈ covered x.1.blocks, ((1 : ℕ) : ℤ) = u + arrival 0 x.1) ∧
    (∃ x ∈ demoPair, ∃ u ∈ covered x.1.blocks, ((3 : ℕ) : ℤ) = u + arrival 0 x.1) ∧
    ¬ ∃ x ∈ demoPair, ∃ u ∈ covered x.1.blocks, ((2 : ℕ) : ℤ) = u + arrival 0 x.1 := by
  have h1 : arrival 0 (⟨[⟨0, [![1], ![2]]⟩], 1, 0, 0⟩ : Sparse 1) = 0 := by norm_num [arrival, pyRound]
  have h2 : arrival 0 (⟨[⟨0, [![5]]⟩], 1, 0, 3⟩ : Sparse 1) = 3 := by norm_num [arrival, pyRound]
  refine ⟨by simp [demoPair, WF], ⟨_, List.mem_cons_self, 1, by simp [covered, List.range_succ], by rw [h1]; rfl⟩,
    ⟨_, List.mem_cons_of_mem _ List.mem_cons_self, 0, by simp [covered], by rw [h2]; rfl⟩, ?_⟩
  rintro ⟨x, hx, u, hu, he⟩
  simp only [demoPair, List.mem_cons, List.not_mem_nil, or_false] at hx
  rcases hx with rfl | rfl
  · rw [h1] at he
    simp [covered, List.range_succ] at hu
    omega
  · rw [h2] at he
    simp [covered] at hu
    omega

/-- One sample, and another right after it. -/
def demoRun : List (Sparse 1 × Bool) := [(⟨[⟨0, [![1]]⟩], 1, 0, 0⟩, false), (⟨[⟨0, [![5]]⟩], 1, 0, 1⟩, true)]

/-- They are received as a single block. -/
example : ∃ r l', mixAll (emptySparse 1 1 0 0) demoRun = .ok (r, l') ∧ r.blocks.length < 2 := by
  have h1 : arrival 0 (⟨[⟨0, [![1]]⟩], 1, 0, 0⟩ : Sparse 1) = 0 := by norm_num [arrival, pyRound]
  have h2 : arrival 0 (⟨[⟨0, [![5]]⟩], 1, 0, 1⟩ : Sparse 1) = 1 := by norm_num [arrival, pyRound]
  have key : ∀ t : ℕ, (∃ x ∈ demoRun, ∃ u ∈ covered x.1.blocks, (t : ℤ) = u + arrival 0 x.1) → t < 2 := by
    rintro t ⟨x, hx, u, hu, he⟩
    simp only [demoRun, List.mem_cons, List.not_mem_nil, or_false] at hx
    rcases hx with rfl | rfl
    · rw [h1] at he
      simp [covered] at hu
      omega
    · rw [h2] at he
      simp [covered] at hu
      omega
  refine C88_contiguous (by decide) 1 0 0 demoRun (by simp [demoRun, WF]) fun p g q hpg hgq _ hq => ?_
  have := key q hq
  omega

/-- A device which receives what impinges. -/
def demoRx : RxDevice := ⟨1000, 0, false, .ok, .ok, id, .ok, [none, some [0]]⟩

/-- Outputs which start 2 samples before the trigger, and 2 samples after it. -/
example : (0 : ℚ) < demoRx.rate ∧ 1 ≤ ((2 / 1000 : ℚ) - 0) * demoRx.rate := by norm_num [demoRx]

end Verif.SimDev
