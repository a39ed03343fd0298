import Verif.Np
import Verif.Dft
import Mathlib.Algebra.BigOperators.Intervals

/-!
# Channel state information

`hermespy/core/channel.py`: `ChannelStateInformation`, the four dimensional tensor (receive streams ×
transmit streams × samples × taps or frequency bins) every channel model and every channel estimator
hands to the receiver.

Simplifications: a tensor is its shape plus a function of the four indices; sparse storage
(`SparseArray`) and dense storage hold the same entries, so they are not distinguished; `scipy.fft` is
the mathematical transform of `Verif.Dft` (backward normalisation, scipy's default).
-/

namespace Verif.Channel.State

open Finset

/-- `ChannelStateFormat`, core/channel.py 25-29. -/
inductive Format | impulse | frequency
  deriving DecidableEq, Repr

/-- The fields of `ChannelStateInformation`, core/channel.py 71-74.  `rx, tx, smp, inf` is the shape
of `__state`, `taps` is `__num_delay_taps`, `bins` is `__num_frequency_bins`. -/
structure Csi (α : Type) where
  fmt : Format
  rx : Nat
  tx : Nat
  smp : Nat
  inf : Nat
  st : Nat → Nat → Nat → Nat → α
  taps : Nat
  bins : Nat

/-- `set_state`, core/channel.py 174-203 (and `__init__` 105), for a four dimensional tensor.  Line 176
refuses tensors of other ranks, which the type cannot express. -/
def create {α : Type} (fmt : Format) (rx tx smp inf : Nat) (st : Nat → Nat → Nat → Nat → α)
    (taps bins : Option Nat) : Except PyErr (Csi α) :=
  let t := taps.getD inf
  let b := bins.getD inf
  if fmt = .impulse ∧ t ≠ inf then .error .value
  else .ok ⟨fmt, rx, tx, smp, inf, st, t, b⟩

/-- `to_impulse_response`, core/channel.py 215-219. -/
noncomputable def toImpulse (c : Csi ℂ) : Csi ℂ :=
  if c.fmt = .frequency then
    { c with
      st := fun r t s => Verif.Dft.ifft .backward c.inf (c.st r t s)
      fmt := .impulse }
  else c

/-- `fft(x, n=n)`, which pads the `len` input values with zeros or cuts them to `n`. -/
noncomputable def fftPad (n len : Nat) (x : Nat → ℂ) : Nat → ℂ :=
  Verif.Dft.fft .backward n fun k => if k < len then x k else 0

/-- `to_frequency_selectivity`, core/channel.py 237-248.  scipy refuses `n < 1` with `ValueError`; by
then line 242 has already stored the number of bins, hence the object beside the outcome. -/
noncomputable def toFrequency (c : Csi ℂ) (numBins : Option Nat) : Csi ℂ × Except PyErr Unit :=
  if c.fmt = .impulse then
    let n := numBins.getD c.bins
    let c1 := { c with bins := n }
    if n = 0 then (c1, .error .value)
    else
      ({ c1 with
          smp := min c.smp n
          inf := n
          st := fun r t s => fftPad n c.inf (c.st r t s)
          fmt := .frequency }, .ok ())
  else (c, .ok ())

/-- `num_symbols`, core/channel.py 284-288. -/
def numSymbols {α : Type} (c : Csi α) : Nat :=
  if c.fmt = .impulse then c.smp else c.smp * c.inf

/-- `state.flatten()[q]` of a C-ordered tensor. -/
def flat {α : Type} (c : Csi α) (q : Nat) : α :=
  c.st (q / (c.tx * (c.smp * c.inf))) (q / (c.smp * c.inf) % c.tx) (q / c.inf % c.smp) (q % c.inf)

/-- `rx_ids.repeat(num_tx * num_taps * num_in)[q]`, core/channel.py 334 and 366. -/
def rxId {α : Type} (c : Csi α) (q : Nat) : Nat := q / (c.tx * (c.smp * c.inf))

/-- `tx_ids.repeat(num_rx * num_taps * num_in).reshape((num_tx, -1), order="F").flatten()[q]`,
core/channel.py 335: row `q / K`, column `q % K` of the Fortran-ordered matrix with `num_tx` rows and
`K = num_rx * num_taps * num_in` columns, that is element `q / K + (q % K) * num_tx` of the repeated
identifiers, each of which is repeated `K` times. -/
def txId {α : Type} (c : Csi α) (q : Nat) : Nat :=
  (q / (c.rx * (c.smp * c.inf)) + q % (c.rx * (c.smp * c.inf)) * c.tx) / (c.rx * (c.smp * c.inf))

/-- `np.tile(out_ids, num_rx * num_tx)[q]`, core/channel.py 329 and 336. -/
def outId {α : Type} (c : Csi α) (q : Nat) : Nat :=
  q % (c.smp * c.inf) % c.inf + q % (c.smp * c.inf) / c.inf

/-- `np.tile(in_ids, num_rx * num_tx)[q]`, core/channel.py 328 and 337. -/
def inId {α : Type} (c : Csi α) (q : Nat) : Nat := q % (c.smp * c.inf) / c.inf

/-- `__impulse_response_transformation`, core/channel.py 321-343: entry of the sparse tensor built from
coordinates and values.  `sparse.COO` adds the values of repeated coordinates. -/
def linearImpulse {α : Type} [AddCommMonoid α] (c : Csi α) (r t o i : Nat) : α :=
  ∑ q ∈ range (c.rx * c.tx * (c.smp * c.inf)),
    if rxId c q = r ∧ txId c q = t ∧ outId c q = o ∧ inId c q = i then flat c q else 0

/-- `__frequency_response_transformation`, core/channel.py 354-376. -/
def linearFrequency {α : Type} [AddCommMonoid α] (c : Csi α) (r t o i : Nat) : α :=
  ∑ q ∈ range (c.rx * c.tx * (c.smp * c.inf)),
    if rxId c q = r ∧ q % (c.tx * (c.smp * c.inf)) / (c.smp * c.inf) = t ∧
        q % (c.smp * c.inf) = o ∧ q % (c.smp * c.inf) = i
    then flat c q else 0

/-- `linear`, core/channel.py 307-311. -/
def linear {α : Type} [AddCommMonoid α] (c : Csi α) : Nat → Nat → Nat → Nat → α :=
  if c.fmt = .impulse then linearImpulse c else linearFrequency c

/-- `Ideal`, core/channel.py 398-399. -/
def ideal {α : Type} [One α] (n rx tx : Nat) : Except PyErr (Csi α) :=
  create .impulse rx tx n 1 (fun _ _ _ _ => 1) none none

/-- A dense signal as far as `propagate` looks at it: stream count, length, samples. -/
structure Sig (α : Type) where
  streams : Nat
  len : Nat
  val : Nat → Nat → α

/-- `state[rx, tx, :num_samples, delay] * signal[tx, :]`, core/channel.py 521-523: the index into the
signal is checked first, then numpy broadcasts `min(smp, n)` state values against `n` signal values
(equal lengths, or a single state value).  A length of one for the signal and none for the state
broadcasts to an empty array which line 524-526 cannot add to one sample. -/
def product {α : Type} [Mul α] (c : Csi α) (x : Sig α) (r t d : Nat) : Except PyErr (Nat → α) :=
  if x.streams ≤ t then .error .index
  else if min c.smp x.len = x.len then .ok fun i => c.st r t i d * x.val t i
  else if min c.smp x.len = 1 then .ok fun i => c.st r t 0 d * x.val t i
  else .error .value

/-- `propagated[rx, d : d + n] += v`, core/channel.py 524-526. -/
def accumulate {α : Type} [Add α] (y : Nat → Nat → α) (r d n : Nat) (v : Nat → α) : Nat → Nat → α :=
  fun r' m => if r' = r ∧ d ≤ m ∧ m < d + n then y r' m + v (m - d) else y r' m

/-- The nested loops of core/channel.py 519-526 over `(delay, transmit, receive)`. -/
def loop {α : Type} [Mul α] [Add α] (c : Csi α) (x : Sig α) :
    List (Nat × Nat × Nat) → (Nat → Nat → α) → Except PyErr (Nat → Nat → α)
  | [], y => .ok y
  | (d, t, r) :: rest, y =>
    match product c x r t d with
    | .error e => .error e
    | .ok v => loop c x rest (accumulate y r d x.len v)

/-- Order of the iterations, core/channel.py 519-520. -/
def order {α : Type} (c : Csi α) : List (Nat × Nat × Nat) :=
  (List.range c.inf).flatMap fun d => (List.range c.tx).flatMap fun t =>
    (List.range c.rx).map fun r => (d, t, r)

/-- `propagate`, core/channel.py 509-528, for a state in impulse response format (line 506 converts
it).  Sampling rate, carrier frequency, noise power and delay are copied from the input. -/
def propagate {α : Type} [Mul α] [Add α] [Zero α] (c : Csi α) (x : Sig α) : Except PyErr (Sig α) :=
  if x.len + c.inf = 0 then .error .value
  else match loop c x (order c) fun _ _ => 0 with
    | .error e => .error e
    | .ok y => .ok ⟨c.rx, x.len + c.inf - 1, y⟩

/-- `reciprocal`, core/channel.py 536-539. -/
def reciprocal {α : Type} (c : Csi α) : Except PyErr (Csi α) :=
  create c.fmt c.tx c.rx c.smp c.inf (fun r t => c.st t r) (some c.taps) (some c.bins)

/-- One element of `samples`, core/channel.py 416-422. -/
def sample {α : Type} (c : Csi α) (s : Nat) : Except PyErr (Csi α) :=
  create c.fmt c.rx c.tx 1 c.inf (fun r t _ k => c.st r t s k) (some c.taps) (some c.bins)

/-- What `serialize` writes, core/channel.py 541-543. -/
structure Record (α : Type) where
  fmt : Format
  rx : Nat
  tx : Nat
  smp : Nat
  inf : Nat
  st : Nat → Nat → Nat → Nat → α

/-- `serialize`, core/channel.py 541-543. -/
def serialize {α : Type} (c : Csi α) : Record α := ⟨c.fmt, c.rx, c.tx, c.smp, c.inf, c.st⟩

/-- `Deserialize`, core/channel.py 549-551. -/
def deserialize {α : Type} (p : Record α) : Except PyErr (Csi α) :=
  create p.fmt p.rx p.tx p.smp p.inf p.st none none

/-! ## Sums over flattened tensors -/

theorem sum_range_mul {α : Type} [AddCommMonoid α] (a b : Nat) (f : Nat → α) :
    ∑ q ∈ range (a * b), f q = ∑ i ∈ range a, ∑ j ∈ range b, f (i * b + j) := by
  induction a with
  | zero => simp
  | succ a ih => rw [Nat.succ_mul, Finset.sum_range_add, ih, Finset.sum_range_succ]

theorem sum_flat {α : Type} [AddCommMonoid α] (R X S T : Nat) (f : Nat → α) :
    ∑ q ∈ range (R * X * (S * T)), f q =
      ∑ r ∈ range R, ∑ t ∈ range X, ∑ i ∈ range S, ∑ k ∈ range T,
        f ((r * X + t) * (S * T) + (i * T + k)) := by
  rw [sum_range_mul, sum_range_mul]
  refine Finset.sum_congr rfl fun r _ => Finset.sum_congr rfl fun t _ => ?_
  rw [sum_range_mul]

theorem sum_pick {α : Type} [AddCommMonoid α] (n a : Nat) (f : Nat → α) (h : ∀ i < n, i ≠ a → f i = 0)
    (ha : n ≤ a → f a = 0) : ∑ i ∈ range n, f i = f a :=
  Finset.sum_eq_single a (fun i hi hne => h i (Finset.mem_range.mp hi) hne)
    fun hn => ha (by simpa using hn)

theorem coord_div {a b n : Nat} (h : b < n) : (a * n + b) / n = a := by
  rw [Nat.add_comm, Nat.add_mul_div_right _ _ (by omega), Nat.div_eq_of_lt h, Nat.zero_add]

theorem coord_mod {a b n : Nat} (h : b < n) : (a * n + b) % n = b := by
  rw [Nat.add_comm, Nat.add_mul_mod_self_right, Nat.mod_eq_of_lt h]

theorem coord_lt {a b m n : Nat} (ha : a < m) (h : b < n) : a * n + b < m * n := by
  have : (a + 1) * n ≤ m * n := Nat.mul_le_mul_right n ha
  rw [Nat.succ_mul] at this
  omega

theorem rx_coord {α : Type} (c : Csi α) {r t i k : Nat} (ht : t < c.tx) (hi : i < c.smp)
    (hk : k < c.inf) : rxId c ((r * c.tx + t) * (c.smp * c.inf) + (i * c.inf + k)) = r := by
  have h := coord_lt hi hk
  unfold rxId
  rw [Nat.mul_comm c.tx, ← Nat.div_div_eq_div_mul, coord_div h, coord_div ht]

theorem flat_coord {α : Type} (c : Csi α) {r t i k : Nat} (ht : t < c.tx) (hi : i < c.smp)
    (hk : k < c.inf) :
    flat c ((r * c.tx + t) * (c.smp * c.inf) + (i * c.inf + k)) = c.st r t i k := by
  have h := coord_lt hi hk
  have h1 := rx_coord c (r := r) ht hi hk
  unfold rxId at h1
  have h2 : ((r * c.tx + t) * (c.smp * c.inf) + (i * c.inf + k)) =
      ((r * c.tx + t) * c.smp + i) * c.inf + k := by ring
  unfold flat
  rw [h1, coord_div h, coord_mod ht, h2, coord_div hk, coord_mod hk, coord_mod hi]

theorem out_coord {α : Type} (c : Csi α) {p i k : Nat} (hi : i < c.smp) (hk : k < c.inf) :
    outId c (p * (c.smp * c.inf) + (i * c.inf + k)) = k + i := by
  unfold outId
  rw [coord_mod (coord_lt hi hk), coord_mod hk, coord_div hk]

theorem in_coord {α : Type} (c : Csi α) {p i k : Nat} (hi : i < c.smp) (hk : k < c.inf) :
    inId c (p * (c.smp * c.inf) + (i * c.inf + k)) = i := by
  unfold inId
  rw [coord_mod (coord_lt hi hk), coord_div hk]

theorem tx_coord {α : Type} (c : Csi α) (hc : c.rx = c.tx ∨ c.tx = 1) {r t j : Nat} (hr : r < c.rx)
    (ht : t < c.tx) (hj : j < c.smp * c.inf) :
    txId c ((r * c.tx + t) * (c.smp * c.inf) + j) = t := by
  unfold txId
  generalize c.smp * c.inf = N at hj ⊢
  rcases hc with hc | hc
  · rw [hc] at hr ⊢
    have h1 : t * N + j < c.tx * N := coord_lt ht hj
    have h2 : (r * c.tx + t) * N + j = r * (c.tx * N) + (t * N + j) := by ring
    rw [h2, coord_div h1, coord_mod h1]
    have h3 : j * c.tx + r < N * c.tx := coord_lt hj hr
    have h4 : r + (t * N + j) * c.tx = t * (c.tx * N) + (j * c.tx + r) := by ring
    rw [h4]
    exact coord_div (by rw [Nat.mul_comm c.tx]; exact h3)
  · rw [hc] at ht ⊢
    have ht0 : t = 0 := by omega
    subst ht0
    have h1 : r * N + j < c.rx * N := coord_lt hr hj
    simp only [Nat.mul_one, Nat.add_zero]
    rw [Nat.div_eq_of_lt h1, Nat.mod_eq_of_lt h1, Nat.zero_add, Nat.div_eq_of_lt h1]

theorem tx_coord_frequency {α : Type} (c : Csi α) {r t j : Nat} (ht : t < c.tx)
    (hj : j < c.smp * c.inf) :
    ((r * c.tx + t) * (c.smp * c.inf) + j) % (c.tx * (c.smp * c.inf)) / (c.smp * c.inf) = t := by
  generalize c.smp * c.inf = N at hj ⊢
  have h1 : t * N + j < c.tx * N := coord_lt ht hj
  have h2 : (r * c.tx + t) * N + j = r * (c.tx * N) + (t * N + j) := by ring
  rw [h2, coord_mod h1, coord_div hj]

/-- Picks one entry out of the four nested sums. -/
theorem sum_pick4 {α : Type} [AddCommMonoid α] (c : Csi α) (g : Nat → Nat → Nat → Nat → α)
    (r t i k : Nat) (hr : r < c.rx) (ht : t < c.tx) (hi : i < c.smp) (hk : k < c.inf)
    (hg : ∀ r' t' i' k', r' < c.rx → t' < c.tx → i' < c.smp → k' < c.inf →
      ¬ (r' = r ∧ t' = t ∧ i' = i ∧ k' = k) → g r' t' i' k' = 0) :
    ∑ r' ∈ range c.rx, ∑ t' ∈ range c.tx, ∑ i' ∈ range c.smp, ∑ k' ∈ range c.inf, g r' t' i' k' =
      g r t i k := by
  rw [sum_pick c.rx r _ _ (by omega)]
  · rw [sum_pick c.tx t _ _ (by omega)]
    · rw [sum_pick c.smp i _ _ (by omega)]
      · exact sum_pick c.inf k _ (fun k' hk' hne => hg r t i k' hr ht hi hk' (by tauto)) (by omega)
      · intro i' hi' hne
        exact Finset.sum_eq_zero fun k' hk' =>
          hg r t i' k' hr ht hi' (Finset.mem_range.mp hk') (by tauto)
    · intro t' ht' hne
      exact Finset.sum_eq_zero fun i' hi' => Finset.sum_eq_zero fun k' hk' =>
        hg r t' i' k' hr ht' (Finset.mem_range.mp hi') (Finset.mem_range.mp hk') (by tauto)
  · intro r' hr' hne
    exact Finset.sum_eq_zero fun t' ht' => Finset.sum_eq_zero fun i' hi' =>
      Finset.sum_eq_zero fun k' hk' =>
        hg r' t' i' k' hr' (Finset.mem_range.mp ht') (Finset.mem_range.mp hi')
          (Finset.mem_range.mp hk') (by tauto)

theorem sum_zero4 {α : Type} [AddCommMonoid α] (c : Csi α) (g : Nat → Nat → Nat → Nat → α)
    (hg : ∀ r' t' i' k', r' < c.rx → t' < c.tx → i' < c.smp → k' < c.inf → g r' t' i' k' = 0) :
    ∑ r' ∈ range c.rx, ∑ t' ∈ range c.tx, ∑ i' ∈ range c.smp, ∑ k' ∈ range c.inf, g r' t' i' k' =
      0 :=
  Finset.sum_eq_zero fun r' hr' => Finset.sum_eq_zero fun t' ht' => Finset.sum_eq_zero fun i' hi' =>
    Finset.sum_eq_zero fun k' hk' => hg r' t' i' k' (Finset.mem_range.mp hr')
      (Finset.mem_range.mp ht') (Finset.mem_range.mp hi') (Finset.mem_range.mp hk')

theorem linearImpulse_entry {α : Type} [AddCommMonoid α] (c : Csi α)
    (hc : c.rx = c.tx ∨ c.tx = 1) (r t o i : Nat) (hr : r < c.rx) (ht : t < c.tx) :
    linearImpulse c r t o i =
      if i < c.smp ∧ i ≤ o ∧ o < i + c.inf then c.st r t i (o - i) else 0 := by
  unfold linearImpulse
  rw [sum_flat]
  split
  · rename_i h
    rw [sum_pick4 c (fun r t i k => if rxId c ((r * c.tx + t) * (c.smp * c.inf) + (i * c.inf + k)) = _ ∧ _ then _ else _) r t i (o - i) hr ht h.1 (by omega)]
    · have hk : o - i < c.inf := by omega
      rw [rx_coord c ht h.1 hk, tx_coord c hc hr ht (coord_lt h.1 hk), out_coord c h.1 hk,
        in_coord c h.1 hk, flat_coord c ht h.1 hk]
      exact if_pos ⟨rfl, rfl, by omega, rfl⟩
    · intro r' t' i' k' hr' ht' hi' hk' hne
      rw [rx_coord c ht' hi' hk', tx_coord c hc hr' ht' (coord_lt hi' hk'), out_coord c hi' hk',
        in_coord c hi' hk']
      refine if_neg fun h' => hne ⟨h'.1, h'.2.1, h'.2.2.2, ?_⟩
      omega
  · rename_i h
    refine sum_zero4 c (fun r t i k => if rxId c ((r * c.tx + t) * (c.smp * c.inf) + (i * c.inf + k)) = _ ∧ _ then _ else _) ?_
    intro r' t' i' k' hr' ht' hi' hk'
    rw [rx_coord c ht' hi' hk', tx_coord c hc hr' ht' (coord_lt hi' hk'), out_coord c hi' hk',
        in_coord c hi' hk']
    refine if_neg fun h' => h ?_
    omega

/-! ## The propagation loop -/

/-- Contribution of one iteration to sample `m` of stream `r0`. -/
def part {α : Type} [Mul α] [Zero α] (c : Csi α) (x : Sig α) (r0 m : Nat) (p : Nat × Nat × Nat) : α :=
  if r0 = p.2.2 ∧ p.1 ≤ m ∧ m < p.1 + x.len then
    c.st p.2.2 p.2.1 (if c.smp = 1 then 0 else m - p.1) p.1 * x.val p.2.1 (m - p.1)
  else 0

theorem product_ok {α : Type} [Mul α] (c : Csi α) (x : Sig α) (r t d : Nat) (ht : t < x.streams)
    (hs : x.len ≤ c.smp ∨ c.smp = 1) :
    ∃ v, product c x r t d = .ok v ∧
      ∀ i < x.len, v i = c.st r t (if c.smp = 1 then 0 else i) d * x.val t i := by
  unfold product
  rw [if_neg (by omega)]
  by_cases h : min c.smp x.len = x.len
  · rw [if_pos h]
    refine ⟨_, rfl, fun i hi => ?_⟩
    by_cases h1 : c.smp = 1
    · have hi0 : i = 0 := by omega
      rw [if_pos h1, hi0]
    · rw [if_neg h1]
  · rw [if_neg h, if_pos (by omega)]
    refine ⟨_, rfl, fun i _ => ?_⟩
    rw [if_pos (by omega)]

theorem loop_ok {α : Type} [Ring α] (c : Csi α) (x : Sig α) (hs : x.len ≤ c.smp ∨ c.smp = 1)
    (l : List (Nat × Nat × Nat)) (hl : ∀ p ∈ l, p.2.1 < x.streams) (y : Nat → Nat → α) :
    ∃ z, loop c x l y = .ok z ∧
      ∀ r m, z r m = y r m + (l.map (part c x r m)).sum := by
  induction l generalizing y with
  | nil => exact ⟨y, rfl, fun r m => by simp⟩
  | cons p rest ih =>
    obtain ⟨d, t, r⟩ := p
    obtain ⟨v, hv, hval⟩ := product_ok c x r t d (hl (d, t, r) (by simp)) hs
    obtain ⟨z, hz, hzval⟩ := ih (fun p hp => hl p (by simp [hp])) (accumulate y r d x.len v)
    refine ⟨z, ?_, fun r' m => ?_⟩
    · rw [loop, hv]; exact hz
    · rw [hzval, List.map_cons, List.sum_cons, ← add_assoc]
      congr 1
      unfold accumulate part
      dsimp only
      split
      · rename_i h
        rw [hval _ (by omega)]
      · simp

theorem sum_map_range {α : Type} [AddCommMonoid α] (n : Nat) (f : Nat → α) :
    ((List.range n).map f).sum = ∑ i ∈ range n, f i := by
  induction n with
  | zero => simp
  | succ n ih => rw [List.range_succ, List.map_append, List.sum_append, ih, Finset.sum_range_succ]; simp

theorem sum_map_flatMap {α β γ : Type} [AddCommMonoid α] (l : List β) (g : β → List γ) (f : γ → α) :
    ((l.flatMap g).map f).sum = (l.map fun b => ((g b).map f).sum).sum := by
  induction l with
  | nil => simp
  | cons b rest ih => rw [List.flatMap_cons, List.map_append, List.sum_append, ih]; simp

theorem sum_order {α : Type} [AddCommMonoid α] (c : Csi α) (f : Nat × Nat × Nat → α) :
    ((order c).map f).sum =
      ∑ d ∈ range c.inf, ∑ t ∈ range c.tx, ∑ r ∈ range c.rx, f (d, t, r) := by
  unfold order
  rw [sum_map_flatMap, sum_map_range]
  refine Finset.sum_congr rfl fun d _ => ?_
  rw [sum_map_flatMap, sum_map_range]
  refine Finset.sum_congr rfl fun t _ => ?_
  rw [List.map_map, sum_map_range]
  rfl

/-- C69: propagation over a state is time-variant convolution: sample `o` of receive stream `r` is the
sum over transmit streams and taps of the tap, taken at the time the signal enters the channel, times
the signal.  A state of a single sample acts at all times. -/
theorem C69_propagate {α : Type} [Ring α] (c : Csi α) (x : Sig α) (ht : c.tx ≤ x.streams)
    (hs : x.len ≤ c.smp ∨ c.smp = 1) (hk : 0 < c.inf) :
    ∃ y : Sig α, propagate c x = .ok y ∧ y.streams = c.rx ∧ y.len = x.len + c.inf - 1 ∧
      ∀ r < c.rx, ∀ o, y.val r o = ∑ t ∈ range c.tx, ∑ k ∈ range c.inf,
        if k ≤ o ∧ o < k + x.len then
          c.st r t (if c.smp = 1 then 0 else o - k) k * x.val t (o - k) else 0 := by
  have hl : ∀ p ∈ order c, p.2.1 < x.streams := by
    intro p hp
    unfold order at hp
    simp only [List.mem_flatMap, List.mem_range, List.mem_map] at hp
    obtain ⟨d, _, t, ht', r, _, rfl⟩ := hp
    dsimp only
    omega
  obtain ⟨z, hz, hval⟩ := loop_ok c x hs (order c) hl fun _ _ => 0
  refine ⟨⟨c.rx, x.len + c.inf - 1, z⟩, ?_, rfl, rfl, fun r hr o => ?_⟩
  · unfold propagate
    rw [if_neg (by omega), hz]
  · dsimp only
    rw [hval, zero_add, sum_order, Finset.sum_comm]
    refine Finset.sum_congr rfl fun t _ => Finset.sum_congr rfl fun k _ => ?_
    rw [sum_pick c.rx r]
    · unfold part
      dsimp only
      by_cases h : k ≤ o ∧ o < k + x.len
      · rw [if_pos h, if_pos ⟨rfl, h⟩]
      · rw [if_neg h, if_neg fun h' => h h'.2]
    · intro r' _ hne
      unfold part
      exact if_neg fun h' => hne h'.1.symm
    · omega

/-- Two transmit streams, two taps, time-variant, one receive stream: outcome `[2, 24, 28]`. -/
example : ∃ y : Sig ℤ, propagate (⟨.impulse, 1, 2, 2, 2, fun _ t s k => (t + 2 * s + 3 * k : ℤ), 2, 2⟩ :
    Csi ℤ) ⟨2, 2, fun t i => t + i + 1⟩ = .ok y ∧ (List.range 3).map (y.val 0) = [2, 24, 28] :=
  ⟨_, rfl, by decide⟩

/-- C69: states which are too short in time (but not constant) and signals with too few streams are
refused, whatever they hold. -/
theorem C69_refused {α : Type} [Ring α] (c : Csi α) (x : Sig α) (hk : 0 < c.inf) (hr : 0 < c.rx)
    (ht : 0 < c.tx) (h : x.streams = 0 ∨ (c.smp < x.len ∧ c.smp ≠ 1)) :
    ∃ e, propagate c x = .error e := by
  have ho : order c = (0, 0, 0) :: (order c).tail := by
    unfold order
    obtain ⟨a, ha⟩ : ∃ a, c.inf = a + 1 := ⟨c.inf - 1, by omega⟩
    obtain ⟨b, hb⟩ : ∃ b, c.tx = b + 1 := ⟨c.tx - 1, by omega⟩
    obtain ⟨d, hd⟩ : ∃ d, c.rx = d + 1 := ⟨c.rx - 1, by omega⟩
    rw [ha, hb, hd]
    simp [List.range_succ_eq_map]
  have hp : ∃ e, product c x 0 0 0 = .error e := by
    unfold product
    rcases h with h | h
    · exact ⟨_, if_pos (by omega)⟩
    · by_cases h0 : x.streams ≤ 0
      · exact ⟨_, if_pos h0⟩
      · rw [if_neg h0, if_neg (by omega), if_neg (by omega)]
        exact ⟨_, rfl⟩
  obtain ⟨e, he⟩ := hp
  refine ⟨e, ?_⟩
  unfold propagate
  rw [if_neg (by omega), ho, loop, he]

/-- A state of two samples cannot carry a signal of three. -/
example : propagate (⟨.impulse, 1, 1, 2, 1, fun _ _ _ _ => (1 : ℤ), 1, 1⟩ : Csi ℤ)
    ⟨1, 3, fun _ _ => 1⟩ = .error .value := rfl

/-! ## The linear transformation -/

/-- C69: for as many receive as transmit streams, or a single transmit stream, multiplying with the
tensor `linear` is exactly what `propagate` does.  Missing: the remaining antenna configurations, for
which it is false (`C69_linear_fails`). -/
theorem C69_linear_partial {α : Type} [Ring α] (c : Csi α) (x : Sig α) (hf : c.fmt = .impulse)
    (hc : c.rx = c.tx ∨ c.tx = 1) (ht : c.tx ≤ x.streams) (hs : c.smp = x.len) (hk : 0 < c.inf) :
    ∃ y : Sig α, propagate c x = .ok y ∧ y.len = x.len + c.inf - 1 ∧
      ∀ r < c.rx, ∀ o, y.val r o =
        ∑ t ∈ range c.tx, ∑ i ∈ range x.len, linear c r t o i * x.val t i := by
  obtain ⟨y, hy, _, hlen, hval⟩ := C69_propagate c x ht (Or.inl hs.ge) hk
  refine ⟨y, hy, hlen, fun r hr o => ?_⟩
  rw [hval r hr o]
  refine Finset.sum_congr rfl fun t ht' => ?_
  have h1 : ∀ i ∈ range x.len, linear c r t o i * x.val t i =
      ∑ k ∈ range c.inf, if i + k = o then c.st r t i k * x.val t i else 0 := by
    intro i hi
    have hi' := Finset.mem_range.mp hi
    unfold linear
    rw [if_pos hf, linearImpulse_entry c hc r t o i hr (Finset.mem_range.mp ht')]
    by_cases h : i ≤ o ∧ o < i + c.inf
    · rw [if_pos ⟨by omega, h⟩, sum_pick c.inf (o - i), if_pos (by omega)]
      · intro k _ hne
        exact if_neg (by omega)
      · omega
    · rw [if_neg (by tauto), zero_mul]
      refine (Finset.sum_eq_zero fun k hk' => if_neg ?_).symm
      have := Finset.mem_range.mp hk'
      omega
  rw [Finset.sum_congr rfl h1, Finset.sum_comm]
  refine Finset.sum_congr rfl fun k _ => ?_
  by_cases h : k ≤ o ∧ o < k + x.len
  · rw [if_pos h, sum_pick x.len (o - k)]
    · rw [if_pos (show o - k + k = o by omega)]
      congr 2
      by_cases h1 : c.smp = 1
      · rw [if_pos h1]; omega
      · rw [if_neg h1]
    · intro i _ hne
      exact if_neg (by omega)
    · omega
  · rw [if_neg h]
    refine (Finset.sum_eq_zero fun i hi => if_neg ?_).symm
    have := Finset.mem_range.mp hi
    omega

/-- A 2 × 2 link with two taps meets the hypotheses. -/
example : linear (⟨.impulse, 2, 2, 2, 2, fun r t s k => (1000 * r + 100 * t + 10 * s + k : ℤ), 2, 2⟩ :
    Csi ℤ) 1 0 2 1 = 1011 := by decide +kernel

/-- C69, false of the code: with one receive and several transmit streams the tensor `linear` is not
the transformation `propagate` applies.  Already for the ideal state of at least two samples the entry
of the last sample of the first stream is missing, whereas propagation passes that sample. -/
theorem C69_linear_fails (n X : Nat) (hn : 2 ≤ n) (hX : 2 ≤ X) :
    ∃ c : Csi ℤ, ideal n 1 X = .ok c ∧ linear c 0 0 (n - 1) (n - 1) = 0 ∧
      ∃ y : Sig ℤ, propagate c ⟨X, n, fun t i => if t = 0 ∧ i = n - 1 then 1 else 0⟩ = .ok y ∧
        y.val 0 (n - 1) = 1 := by
  refine ⟨⟨.impulse, 1, X, n, 1, fun _ _ _ _ => 1, 1, 1⟩, rfl, ?_, ?_⟩
  · unfold linear
    rw [if_pos rfl]
    unfold linearImpulse
    refine Finset.sum_eq_zero fun q _ => if_neg ?_
    rintro ⟨_, h2, _, h4⟩
    unfold inId at h4
    unfold txId at h2
    simp only [Nat.mul_one, Nat.one_mul, Nat.div_one] at h2 h4
    rw [h4] at h2
    have h5 : n ≤ q / n + (n - 1) * X := by
      have h6 : (n - 1) * 2 ≤ (n - 1) * X := Nat.mul_le_mul_left _ hX
      have h7 : n ≤ (n - 1) * X := le_trans (by clear h4; omega) h6
      exact le_trans h7 (Nat.le_add_left _ _)
    have := Nat.div_pos h5 (by omega)
    omega
  · obtain ⟨y, hy, _, _, hval⟩ := C69_propagate
      (⟨.impulse, 1, X, n, 1, fun _ _ _ _ => 1, 1, 1⟩ : Csi ℤ)
      ⟨X, n, fun t i => if t = 0 ∧ i = n - 1 then 1 else 0⟩ le_rfl (Or.inl le_rfl) (by simp)
    refine ⟨y, hy, ?_⟩
    rw [hval 0 (by simp) (n - 1)]
    dsimp only
    rw [sum_pick X 0]
    · rw [Finset.sum_range_one, if_pos (by omega)]
      simp
    · intro t _ hne
      simp [hne]
    · omega

/-- C69: in frequency selectivity format `linear` is, for every antenna configuration, the diagonal
tensor weighting symbol `i` (sample `i / F`, bin `i % F`) of every stream pair with its state. -/
theorem C69_frequency {α : Type} [AddCommMonoid α] (c : Csi α) (hf : c.fmt = .frequency)
    (r t o i : Nat) (hr : r < c.rx) (ht : t < c.tx) (hi : i < numSymbols c) :
    linear c r t o i = if o = i then c.st r t (i / c.inf) (i % c.inf) else 0 := by
  unfold numSymbols at hi
  unfold linear
  rw [if_neg (by rw [hf]; decide)] at hi ⊢
  unfold linearFrequency
  rw [sum_flat]
  have h0 : 0 < c.inf := Nat.pos_of_ne_zero fun h => by rw [h] at hi; omega
  have hs : i / c.inf < c.smp := Nat.div_lt_of_lt_mul (by rw [Nat.mul_comm]; exact hi)
  have hm : i % c.inf < c.inf := Nat.mod_lt _ h0
  have hi' : i / c.inf * c.inf + i % c.inf = i := Nat.div_add_mod' i c.inf
  rw [sum_pick4 c (fun r t i k =>
    if rxId c ((r * c.tx + t) * (c.smp * c.inf) + (i * c.inf + k)) = _ ∧ _ then _ else _)
    r t (i / c.inf) (i % c.inf) hr ht hs hm]
  · rw [rx_coord c ht hs hm, tx_coord_frequency c ht (coord_lt hs hm), coord_mod (coord_lt hs hm),
      flat_coord c ht hs hm, hi']
    by_cases h : o = i
    · rw [if_pos h, if_pos ⟨rfl, rfl, h.symm, rfl⟩]
    · rw [if_neg h, if_neg fun h' => h h'.2.2.1.symm]
  · intro r' t' i' k' hr' ht' hi'' hk' hne
    rw [rx_coord c ht' hi'' hk', tx_coord_frequency c ht' (coord_lt hi'' hk'),
      coord_mod (coord_lt hi'' hk')]
    refine if_neg fun h' => hne ⟨h'.1, h'.2.1, ?_, ?_⟩
    · rw [← h'.2.2.2, coord_div hk']
    · rw [← h'.2.2.2, coord_mod hk']

/-- One receive and two transmit streams, two bins. -/
example : linear (⟨.frequency, 1, 2, 2, 2, fun r t s k => (1000 * r + 100 * t + 10 * s + k : ℤ), 2, 2⟩ :
    Csi ℤ) 0 1 3 3 = 111 := by decide +kernel

/-! ## Format conversion -/

/-- C69: the frequency representation of a sample is the Fourier sum over its taps; the samples
themselves survive as long as there are at least as many bins as samples and taps, and the way back
recovers the impulse response, padded with zeros.  Missing: fewer bins than samples
(`C69_samples_fails`) and what follows the way back (`C69_padded_fails`). -/
theorem C69_convert_partial (c : Csi ℂ) (hf : c.fmt = .impulse) (n : Nat) (hn : 0 < n)
    (hs : c.smp ≤ n) (hk : c.inf ≤ n) :
    (toFrequency c (some n)).2 = .ok () ∧
    (toFrequency c (some n)).1.smp = c.smp ∧
    (toFrequency c (some n)).1.inf = n ∧
    (∀ r t s f, (toFrequency c (some n)).1.st r t s f = ∑ k ∈ range c.inf,
      c.st r t s k * Complex.exp (-(2 * Real.pi * Complex.I * f * k / n))) ∧
    (toImpulse (toFrequency c (some n)).1).fmt = .impulse ∧
    ∀ r t s k, k < n → (toImpulse (toFrequency c (some n)).1).st r t s k =
      if k < c.inf then c.st r t s k else 0 := by
  have h : toFrequency c (some n) =
      (({ c with
          bins := n
          smp := min c.smp n
          inf := n
          st := fun r t s => fftPad n c.inf (c.st r t s)
          fmt := .frequency } : Csi ℂ), .ok ()) := by
    unfold toFrequency
    rw [if_pos hf]
    dsimp only [Option.getD_some]
    rw [if_neg (by omega)]
  rw [h]
  refine ⟨rfl, min_eq_left hs, rfl, fun r t s f => ?_, rfl, fun r t s k hk' => ?_⟩
  · dsimp only
    unfold fftPad Verif.Dft.fft Verif.Dft.Norm.fwd
    rw [one_mul]
    obtain ⟨d, rfl⟩ : ∃ d, n = c.inf + d := ⟨n - c.inf, by omega⟩
    rw [Finset.sum_range_add]
    have h0 : ∑ j ∈ range d, (if c.inf + j < c.inf then c.st r t s (c.inf + j) else 0) *
        Complex.exp (-(2 * Real.pi * Complex.I * f * (c.inf + j : Nat) / (c.inf + d : Nat))) = 0 :=
      Finset.sum_eq_zero fun j _ => by rw [if_neg (by omega), zero_mul]
    rw [h0, add_zero]
    refine Finset.sum_congr rfl fun k hk' => ?_
    beta_reduce
    rw [if_pos (Finset.mem_range.mp hk')]
  · unfold toImpulse
    rw [if_pos rfl]
    dsimp only
    exact Verif.Dft.ifft_fft .backward n _ k hk'

/-- Two samples of two taps and four bins meet the hypotheses. -/
example : ∃ c : Csi ℂ, create .impulse 1 1 2 2 (fun _ _ s k => (s + k : ℂ)) none none = .ok c ∧
    c.fmt = .impulse ∧ c.smp ≤ 4 ∧ c.inf ≤ 4 := ⟨_, rfl, rfl, by simp, by simp⟩

/-- C69, false of the code: converting a state to the frequency domain cuts its *time* axis to the
number of bins, by default the number of taps.  Every impulse response with more samples than taps
loses samples, e.g. the ideal state of any length keeps one sample. -/
theorem C69_samples_fails (rx tx smp inf : Nat) (st : Nat → Nat → Nat → Nat → ℂ) (hi : 0 < inf)
    (hs : inf < smp) :
    ∃ c : Csi ℂ, create .impulse rx tx smp inf st none none = .ok c ∧ c.smp = smp ∧
      (toFrequency c none).2 = .ok () ∧ (toFrequency c none).1.smp = inf ∧
      (toImpulse (toFrequency c none).1).smp ≠ smp := by
  refine ⟨⟨.impulse, rx, tx, smp, inf, st, inf, inf⟩, ?_, rfl, ?_, ?_, ?_⟩
  · unfold create
    simp
  all_goals
    unfold toFrequency
    rw [if_pos rfl]
    dsimp only [Option.getD_none]
    rw [if_neg (by omega)]
  · dsimp only
    omega
  · unfold toImpulse
    rw [if_pos rfl]
    dsimp only
    omega

example : ∃ c : Csi ℂ, ideal 5 1 1 = .ok c ∧ (toFrequency c none).1.smp = 1 := by
  obtain ⟨c, hc, _, _, h, _⟩ := C69_samples_fails 1 1 5 1 (fun _ _ _ _ => 1) (by simp) (by simp)
  exact ⟨c, hc, h⟩

/-- C69, false of the code: after a conversion to another number of bins than there are taps and back
to an impulse response, the number of taps the object remembers is no longer the size of the tensor,
and both `reciprocal` and `samples` raise. -/
theorem C69_padded_fails (c : Csi ℂ) (hf : c.fmt = .impulse) (n : Nat) (hn : 0 < n)
    (ht : n ≠ c.taps) :
    reciprocal (toImpulse (toFrequency c (some n)).1) = .error .value ∧
      ∀ s, sample (toImpulse (toFrequency c (some n)).1) s = .error .value := by
  have h : (toImpulse (toFrequency c (some n)).1).fmt = .impulse ∧
      (toImpulse (toFrequency c (some n)).1).taps = c.taps ∧
      (toImpulse (toFrequency c (some n)).1).inf = n := by
    unfold toFrequency
    rw [if_pos hf]
    dsimp only [Option.getD_some]
    rw [if_neg (by omega)]
    unfold toImpulse
    rw [if_pos rfl]
    exact ⟨rfl, rfl, rfl⟩
  obtain ⟨h1, h2, h3⟩ := h
  constructor
  · unfold reciprocal create
    dsimp only [Option.getD_some]
    rw [h1, h2, h3]
    exact if_pos ⟨rfl, ht.symm⟩
  · intro s
    unfold sample create
    dsimp only [Option.getD_some]
    rw [h1, h2, h3]
    exact if_pos ⟨rfl, ht.symm⟩

/-- C69: as long as the remembered number of taps is the size of the tensor, as it is for every freshly
created impulse response, the reciprocal exists, exchanges the antennas and is its own inverse. -/
theorem C69_reciprocal_partial {α : Type} (c : Csi α) (h : c.fmt = .impulse → c.taps = c.inf) :
    ∃ d : Csi α, reciprocal c = .ok d ∧ d.rx = c.tx ∧ d.tx = c.rx ∧ d.smp = c.smp ∧ d.inf = c.inf ∧
      (∀ r t s k, d.st r t s k = c.st t r s k) ∧ reciprocal d = .ok c := by
  refine ⟨⟨c.fmt, c.tx, c.rx, c.smp, c.inf, fun r t => c.st t r, c.taps, c.bins⟩, ?_, rfl, rfl, rfl,
    rfl, fun _ _ _ _ => rfl, ?_⟩
  all_goals
    unfold reciprocal create
    dsimp only [Option.getD_some]
    exact if_neg fun h' => h'.2 (h h'.1)

/-- Every impulse response that is created meets the hypothesis. -/
theorem create_taps {α : Type} (rx tx smp inf : Nat) (st : Nat → Nat → Nat → Nat → α)
    (taps bins : Option Nat) (c : Csi α) (h : create .impulse rx tx smp inf st taps bins = .ok c) :
    c.taps = c.inf := by
  unfold create at h
  dsimp only at h
  split at h
  · exact absurd h (by simp)
  · rename_i h'
    cases h
    dsimp only
    by_contra hne
    exact h' ⟨rfl, hne⟩

example : ∃ c d : Csi ℤ, create .impulse 1 2 1 2 (fun _ t _ k => (t + k : ℤ)) none (some 8) = .ok c ∧
    reciprocal c = .ok d ∧ d.st 1 0 0 1 = 2 := ⟨_, _, rfl, rfl, by decide⟩

/-- C69: as long as the remembered number of taps is the size of the tensor, iterating over the samples
of a state yields states of one sample each holding that sample's entries, and they account for the whole
channel: propagating a signal is the same as propagating each of its samples over the state yielded
for its time and adding the results. -/
theorem C69_sample_partial {α : Type} [Ring α] (c : Csi α) (h : c.fmt = .impulse → c.taps = c.inf)
    (x : Sig α) (ht : c.tx ≤ x.streams) (hs : x.len ≤ c.smp) (hk : 0 < c.inf) :
    ∃ d : Nat → Csi α, (∀ s, sample c s = .ok (d s) ∧ (d s).fmt = c.fmt ∧ (d s).rx = c.rx ∧
        (d s).tx = c.tx ∧ (d s).smp = 1 ∧ (d s).inf = c.inf ∧
        ∀ r t k, (d s).st r t 0 k = c.st r t s k) ∧
      ∃ y : Sig α, ∃ z : Nat → Sig α, propagate c x = .ok y ∧
        (∀ s, propagate (d s) ⟨x.streams, x.len, fun t m => if m = s then x.val t m else 0⟩ =
          .ok (z s)) ∧
        ∀ r < c.rx, ∀ o, y.val r o = ∑ s ∈ range x.len, (z s).val r o := by
  refine ⟨fun s => ⟨c.fmt, c.rx, c.tx, 1, c.inf, fun r t _ k => c.st r t s k, c.taps, c.bins⟩,
    fun s => ⟨?_, rfl, rfl, rfl, rfl, rfl, fun _ _ _ => rfl⟩, ?_⟩
  · unfold sample create
    dsimp only [Option.getD_some]
    exact if_neg fun h' => h'.2 (h h'.1)
  obtain ⟨y, hy, -, -, hval⟩ := C69_propagate c x ht (.inl hs) hk
  have hz := fun s : Nat => C69_propagate
    (⟨c.fmt, c.rx, c.tx, 1, c.inf, fun r t _ k => c.st r t s k, c.taps, c.bins⟩ : Csi α)
    ⟨x.streams, x.len, fun t m => if m = s then x.val t m else 0⟩ ht (.inr rfl) hk
  choose z hz1 _ _ hz2 using hz
  refine ⟨y, z, hy, hz1, fun r hr o => ?_⟩
  rw [hval r hr o, Finset.sum_congr rfl fun s _ => hz2 s r hr o]
  rw [Finset.sum_comm (s := range x.len) (t := range c.tx)]
  refine Finset.sum_congr rfl fun t _ => ?_
  rw [Finset.sum_comm (s := range x.len) (t := range c.inf)]
  refine Finset.sum_congr rfl fun k _ => ?_
  dsimp only
  by_cases hb : k ≤ o ∧ o < k + x.len
  · simp only [if_pos hb, mul_ite, mul_zero]
    rw [Finset.sum_ite_eq, if_pos (Finset.mem_range.mpr (by omega))]
    congr 1
    by_cases h1 : c.smp = 1
    · rw [if_pos h1]
      have : o - k = 0 := by omega
      rw [this]
    · rw [if_neg h1]
  · simp only [if_neg hb, Finset.sum_const_zero]

/-- A state of two antennas, three samples and two taps and a signal of three samples. -/
example : ∃ d : Nat → Csi ℤ, ∀ s, sample (⟨.impulse, 1, 2, 3, 2, fun _ t s k => (t + s + k : ℤ), 2, 2⟩ :
    Csi ℤ) s = .ok (d s) ∧ (d s).st 0 1 0 1 = 2 + (s : ℤ) := by
  obtain ⟨d, hd, -⟩ := C69_sample_partial
    (⟨.impulse, 1, 2, 3, 2, fun _ t s k => (t + s + k : ℤ), 2, 2⟩ : Csi ℤ) (fun _ => rfl)
    ⟨2, 3, fun _ m => m⟩ (by simp) (by simp) (by simp)
  refine ⟨d, fun s => ⟨(hd s).1, ?_⟩⟩
  rw [(hd s).2.2.2.2.2.2]
  push_cast
  ring

/-- C69, false of the code: a stored state forgets its number of frequency bins, so the restored object
converts to a different frequency representation than the original. -/
theorem C69_restore_fails :
    ∃ c d : Csi ℂ, create .impulse 1 1 1 1 (fun _ _ _ _ => 1) none (some 8) = .ok c ∧
      deserialize (serialize c) = .ok d ∧
      (toFrequency c none).1.inf = 8 ∧ (toFrequency d none).1.inf = 1 := by
  refine ⟨_, _, rfl, rfl, ?_, ?_⟩ <;> simp [toFrequency, serialize]

/-- C69: format, shape and entries of a state always survive storing and restoring; the remembered
numbers of taps and bins become the size of the tensor.  Missing: `C69_restore_fails`. -/
theorem C69_restore_partial {α : Type} (c : Csi α) :
    ∃ d : Csi α, deserialize (serialize c) = .ok d ∧ d.fmt = c.fmt ∧ d.rx = c.rx ∧ d.tx = c.tx ∧
      d.smp = c.smp ∧ d.inf = c.inf ∧ (∀ r t s k, d.st r t s k = c.st r t s k) ∧
      (c.taps = c.inf → c.bins = c.inf → d = c) := by
  refine ⟨⟨c.fmt, c.rx, c.tx, c.smp, c.inf, c.st, c.inf, c.inf⟩, ?_, rfl, rfl, rfl, rfl, rfl,
    fun _ _ _ _ => rfl, ?_⟩
  · unfold deserialize serialize create
    simp
  · intro h1 h2
    cases c
    simp_all

example : ∃ c d : Csi ℤ, create .frequency 1 1 1 4 (fun _ _ _ k => (k : ℤ)) (some 2) none = .ok c ∧
    deserialize (serialize c) = .ok d ∧ d.st 0 0 0 3 = 3 := ⟨_, _, rfl, rfl, rfl⟩

end Verif.Channel.State
