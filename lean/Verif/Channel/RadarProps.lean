import Verif.Channel.RadarPath

/-!
# C77: properties of radar propagation paths

Continues `Verif.Channel.RadarPath`.
-/

namespace Verif.RadarChannel

open Verif Verif.Core Finset
open Verif.Channel.State (Sig Csi)

/-! ### Channel state -/

/-- Contribution of a path to the channel state before the gain is applied. -/
noncomputable def tap (s : Sample) (taps : Nat) (p : Path) (v : ℝ) (r t m k : Nat) : ℂ :=
  if k = p.shift s ∧ p.shift s < taps then
    (p.response s.tx s.rx s.fc).val r t * weight v s.fc s.bw s.time m
  else 0

theorem stateLoop_ok (s : Sample) (hb : 0 < s.bw) (v : Path → ℝ) (taps : Nat) :
    ∀ (ps : List Path), (∀ p ∈ ps, p.velocity s.tx s.rx = .ok (v p)) →
      (∀ p ∈ ps, p.interferes = true → s.tx.num = s.tx.numTx ∧ s.rx.num = s.rx.numRx) →
      ∀ st : Nat → Nat → Nat → Nat → ℂ, ∃ z, stateLoop s taps ps st = .ok z ∧
        ∀ r t m k, z r t m k = st r t m k + (ps.map fun p => tap s taps p (v p) r t m k).sum
  | [], _, _, st => ⟨st, rfl, fun r t m k => by simp⟩
  | p :: ps, hv, hI, st => by
    obtain ⟨h1, h2⟩ := dims s.fc (hI p (by simp))
    obtain ⟨z, hz, hval⟩ := stateLoop_ok s hb v taps ps
      (fun q hq => hv q (List.mem_cons_of_mem _ hq)) (fun q hq => hI q (List.mem_cons_of_mem _ hq))
      fun r t m k => st r t m k + tap s taps p (v p) r t m k
    refine ⟨z, ?_, fun r t m k => ?_⟩
    · have h0 : 0 ≤ p.delay s.tx s.rx * s.bw := mul_nonneg (delay_nonneg _ _ _) hb.le
      have hf : ⌊p.delay s.tx s.rx * s.bw⌋ = (p.shift s : ℤ) := (Int.natCast_floor_eq_floor h0).symm
      have : p.addState s.tx s.rx s.bw s.fc s.time 0 s.rx.numRx s.tx.numTx taps st =
          .ok fun r t m k => st r t m k + tap s taps p (v p) r t m k := by
        unfold Path.addState
        rw [hv p (by simp)]
        dsimp only
        rw [sub_zero, if_pos h0, hf]
        by_cases ht : p.shift s < taps
        · rw [if_neg (by omega), if_pos ⟨.inl h1, .inl h2⟩]
          congr 1
          funext r t m k
          unfold tap
          by_cases hk : k = p.shift s
          · rw [if_pos (by exact_mod_cast hk : (k : ℤ) = (p.shift s : ℤ)), if_pos h1, if_pos h2,
              if_pos ⟨hk, ht⟩]
          · rw [if_neg (by exact_mod_cast hk), if_neg (fun h => hk h.1), add_zero]
        · rw [if_pos (by omega)]
          congr 1
          funext r t m k
          unfold tap
          rw [if_neg (fun h => ht h.2), add_zero]
      unfold stateLoop
      rw [this]
      exact hz
    · rw [hval, List.map_cons, List.sum_cons]
      ring

/-- C77: the channel state holds every path of a delay below the requested number of taps at the tap of
its delay, weighted and rotated as in propagation. -/
theorem C77_state_partial (s : Sample) (smp taps : Nat) (v : Path → ℝ) (hb : 0 < s.bw)
    (hv : ∀ p ∈ s.paths, p.velocity s.tx s.rx = .ok (v p))
    (hI : ∀ p ∈ s.paths, p.interferes = true → s.tx.num = s.tx.numTx ∧ s.rx.num = s.rx.numRx) :
    ∃ c : Csi ℂ, s.state smp taps = .ok c ∧ c.rx = s.rx.numRx ∧ c.tx = s.tx.numTx ∧ c.smp = smp ∧
      c.inf = taps ∧ ∀ r t m, ∀ k < taps, c.st r t m k = Real.sqrt s.gain * (s.paths.map fun p =>
        if ⌊p.delay s.tx s.rx * s.bw⌋₊ = k then
          (p.response s.tx s.rx s.fc).val r t * Complex.exp (2 * Real.pi * Complex.I *
            ((v p * s.fc / light * (s.time + m / s.bw) : ℝ) : ℂ))
        else 0).sum := by
  obtain ⟨z, hz, hval⟩ := stateLoop_ok s hb v taps s.paths hv hI fun _ _ _ _ => 0
  refine ⟨⟨.impulse, s.rx.numRx, s.tx.numTx, smp, taps,
    fun r t m k => z r t m k * (Real.sqrt s.gain : ℝ), taps, taps⟩, ?_, rfl, rfl, rfl, rfl,
    fun r t m k hk => ?_⟩
  · unfold Sample.state
    rw [hz]
    simp [Verif.Channel.State.create]
  · dsimp only
    rw [hval, zero_add, mul_comm]
    congr 2
    refine List.map_congr_left fun p _ => ?_
    unfold tap weight
    by_cases h : ⌊p.delay s.tx s.rx * s.bw⌋₊ = k
    · rw [if_pos h, if_pos ⟨h.symm, by unfold Path.shift; omega⟩]
    · rw [if_neg h, if_neg fun h' => h h'.1.symm]

theorem superpose (s : Sample) (x : Sig ℂ) (v : Path → ℝ) (taps r m : Nat) (g : ℂ) :
    ∀ ps : List Path, (∀ p ∈ ps, p.shift s < taps) →
      ∑ t ∈ range x.streams, ∑ k ∈ range taps, (if k ≤ m ∧ m < k + x.len then
        g * (ps.map fun p => tap s taps p (v p) r t (m - k) k).sum * x.val t (m - k) else 0) =
      g * (ps.map fun p => part s x p (v p) r m).sum
  | [], _ => by simp
  | p :: ps, h => by
    have ih := superpose s x v taps r m g ps fun q hq => h q (List.mem_cons_of_mem _ hq)
    rw [List.map_cons, List.sum_cons, mul_add, ← ih]
    have h1 : g * part s x p (v p) r m = ∑ t ∈ range x.streams, ∑ k ∈ range taps,
        (if k ≤ m ∧ m < k + x.len then
          g * tap s taps p (v p) r t (m - k) k * x.val t (m - k) else 0) := by
      have h2 : ∀ t ∈ range x.streams, ∑ k ∈ range taps, (if k ≤ m ∧ m < k + x.len then
          g * tap s taps p (v p) r t (m - k) k * x.val t (m - k) else 0) =
          if p.shift s ≤ m ∧ m < p.shift s + x.len then
            g * ((p.response s.tx s.rx s.fc).val r t * x.val t (m - p.shift s) *
              weight (v p) s.fc s.bw s.time (m - p.shift s)) else 0 := by
        intro t _
        rw [Finset.sum_eq_single (p.shift s)]
        · by_cases hm : p.shift s ≤ m ∧ m < p.shift s + x.len
          · rw [if_pos hm, if_pos hm]
            unfold tap
            rw [if_pos ⟨rfl, h p (by simp)⟩]
            ring
          · rw [if_neg hm, if_neg hm]
        · intro k _ hk
          have : tap s taps p (v p) r t (m - k) k = 0 := if_neg fun h' => hk h'.1
          rw [this]
          simp
        · intro hn
          exact absurd (Finset.mem_range.mpr (h p (by simp))) hn
      rw [Finset.sum_congr rfl h2]
      unfold part
      by_cases hm : p.shift s ≤ m ∧ m < p.shift s + x.len
      · simp only [if_pos hm]
        rw [← Finset.mul_sum, Finset.sum_mul]
      · simp only [if_neg hm, mul_zero, Finset.sum_const_zero]
    rw [h1, ← Finset.sum_add_distrib]
    refine Finset.sum_congr rfl fun t _ => ?_
    rw [← Finset.sum_add_distrib]
    refine Finset.sum_congr rfl fun k _ => ?_
    rw [List.map_cons, List.sum_cons]
    split
    · ring
    · simp

/-- C77: channel state and propagation agree: propagating a signal over the reported channel state yields
the samples propagation over the channel yields, if as many taps are requested as the longest path
takes and one sample for each sample of the signal. -/
theorem C77_agreement_partial (s : Sample) (x : Sig ℂ) (smp taps : Nat) (v : Path → ℝ) (hb : 0 < s.bw)
    (hx : x.streams = s.tx.numTx) (hv : ∀ p ∈ s.paths, p.velocity s.tx s.rx = .ok (v p))
    (hs : ∀ p ∈ s.paths, |2 * v p * x.len| < s.bw * light)
    (hI : ∀ p ∈ s.paths, p.interferes = true → s.tx.num = s.tx.numTx ∧ s.rx.num = s.rx.numRx)
    (ht : ∀ p ∈ s.paths, ⌊p.delay s.tx s.rx * s.bw⌋₊ < taps) (h0 : 0 < taps) (hsmp : x.len ≤ smp) :
    ∃ (c : Csi ℂ) (y z : Sig ℂ), s.state smp taps = .ok c ∧ s.propagate x = .ok y ∧
      Verif.Channel.State.propagate c x = .ok z ∧ z.streams = y.streams ∧
      ∀ r < s.rx.numRx, ∀ m, y.val r m = z.val r m := by
  obtain ⟨c, hc, c1, c2, c3, c4, hst⟩ := C77_state_partial s smp taps v hb hv hI
  obtain ⟨y, hy, y1, -, -, -, hyv⟩ := C77_propagate_partial s x v hb hx hv hs hI
  obtain ⟨z, hz, z1, -, hzv⟩ := Verif.Channel.State.C69_propagate c x (by rw [c2, hx])
    (.inl (by rw [c3]; exact hsmp)) (by rw [c4]; exact h0)
  refine ⟨c, y, z, hc, hy, hz, by rw [z1, y1, c1], fun r hr m => ?_⟩
  rw [hyv, hzv r (by rw [c1]; exact hr)]
  have hsup := superpose s x v taps r m (Real.sqrt s.gain : ℝ) s.paths ht
  unfold part weight at hsup
  rw [hx] at hsup
  refine Eq.trans hsup.symm ?_
  rw [c2, c4]
  refine Finset.sum_congr rfl fun t _ => Finset.sum_congr rfl fun k hk => ?_
  by_cases hm : k ≤ m ∧ m < k + x.len
  · rw [if_pos hm, if_pos hm, hst _ _ _ _ (Finset.mem_range.mp hk)]
    have hi : (if c.smp = 1 then 0 else m - k) = m - k := by
      rw [c3]
      split
      · omega
      · rfl
    rw [hi]
    congr 3
    refine List.map_congr_left fun p hp => ?_
    unfold tap weight Path.shift
    by_cases h : ⌊p.delay s.tx s.rx * s.bw⌋₊ = k
    · rw [if_pos h, if_pos ⟨h.symm, ht p hp⟩]
    · rw [if_neg h, if_neg fun h' => h h'.1.symm]
  · rw [if_neg hm, if_neg hm]

/-! ### An example -/

/-- A transmitter at the origin. -/
def demoTx (num : Nat) : Dev := ⟨0, 0, 1, 1, num, fun _ _ _ _ p => if p = 0 then 1 else 0⟩

/-- A receiver six metres away, moving away. -/
def demoRx (num : Nat) (v : ℝ) : Dev :=
  ⟨![6, 0, 0], ![v, 0, 0], 1, 1, num, fun _ _ _ _ p => if p = 0 then 1 else 0⟩

/-- A target at rest five metres from both, and the line of sight. -/
def demoPaths (a : Bool) : List Path := [.target ![3, 4, 0] 0 1 0 a false, .interference a true]

/-- One sample for each two metres. -/
noncomputable def demo (ps : List Path) (tx rx : Nat) (v time : ℝ) : Sample :=
  ⟨ps, 4, demoTx tx, demoRx rx v, light, light / 2, time⟩

theorem sqrt36 : Real.sqrt 36 = 6 := by
  rw [show (36 : ℝ) = 6 ^ 2 by norm_num]; exact Real.sqrt_sq (by norm_num)

theorem sqrt25 : Real.sqrt 25 = 5 := by
  rw [show (25 : ℝ) = 5 ^ 2 by norm_num]; exact Real.sqrt_sq (by norm_num)

theorem demo_interference (a st : Bool) (m n : Nat) (v : ℝ) :
    (Path.interference a st).velocity (demoTx m) (demoRx n v) = .ok (-v) := by
  rw [velocity_interference]
  · simp [dot3, scale, norm3, demoTx, demoRx]
  · intro h
    simpa [demoTx, demoRx] using congrFun h 0

theorem demo_target (rcs phase : ℝ) (a st : Bool) (m n : Nat) (v : ℝ) :
    (Path.target ![3, 4, 0] 0 rcs phase a st).velocity (demoTx m) (demoRx n v) = .ok (3 / 5 * v) := by
  rw [velocity_target]
  · simp [dot3, scale, norm3, demoTx, demoRx]
    norm_num [sqrt25]
  · constructor
    · intro h
      simpa [demoTx] using congrFun h 0
    · intro h
      simpa [demoRx] using congrFun h 1

theorem demo_delay_target (rcs phase : ℝ) (a st : Bool) (m n : Nat) (v : ℝ) :
    ⌊(Path.target ![3, 4, 0] 0 rcs phase a st).delay (demoTx m) (demoRx n v) * (light / 2)⌋₊ = 5 := by
  have : (Path.target ![3, 4, 0] 0 rcs phase a st).delay (demoTx m) (demoRx n v) * (light / 2) = 5 := by
    have hl := light_pos.ne'
    simp [Path.delay, norm3, demoTx, demoRx]
    norm_num [sqrt25]
    field_simp
    norm_num
  rw [this]
  norm_num

theorem demo_delay_interference (a st : Bool) (m n : Nat) (v : ℝ) :
    ⌊(Path.interference a st).delay (demoTx m) (demoRx n v) * (light / 2)⌋₊ = 3 := by
  have : (Path.interference a st).delay (demoTx m) (demoRx n v) * (light / 2) = 3 := by
    have hl := light_pos.ne'
    simp [Path.delay, norm3, demoTx, demoRx]
    field_simp
    norm_num
  rw [this]
  norm_num

/-- Velocities of the example. -/
noncomputable def demoVel (v : ℝ) (p : Path) : ℝ := if p.interferes then -v else 3 / 5 * v

/-- Two echoes of an impulse sent between a device at rest and a moving one: channel state and propagation
agree; the line of sight arrives after three samples, the echo of the target after five. -/
example : ∃ (c : Csi ℂ) (y z : Sig ℂ), (demo (demoPaths false) 1 1 10 2).state 1 8 = .ok c ∧
    (demo (demoPaths false) 1 1 10 2).propagate ⟨1, 1, fun _ _ => 1⟩ = .ok y ∧
    Verif.Channel.State.propagate c ⟨1, 1, fun _ _ => 1⟩ = .ok z ∧ z.streams = y.streams ∧
    ∀ r < 1, ∀ m, y.val r m = z.val r m := by
  have hl : light = 299792458 := rfl
  refine C77_agreement_partial (demo (demoPaths false) 1 1 10 2) ⟨1, 1, fun _ _ => 1⟩ 1 8
    (demoVel 10) (by simp [demo, light]) rfl ?_ ?_ (by simp [demo, demoTx, demoRx]) ?_ (by norm_num)
    (by norm_num)
  · intro p hp
    simp only [demo, demoPaths, List.mem_cons, List.not_mem_nil, or_false] at hp ⊢
    rcases hp with rfl | rfl
    · rw [demo_target]; simp [demoVel, Path.interferes]
    · rw [demo_interference]; simp [demoVel, Path.interferes]
  · intro p hp
    simp only [demo, demoVel]
    split <;> norm_num [light, abs_lt]
  · intro p hp
    simp only [demo, demoPaths, List.mem_cons, List.not_mem_nil, or_false] at hp ⊢
    rcases hp with rfl | rfl
    · rw [demo_delay_target]; norm_num
    · rw [demo_delay_interference]; norm_num

/-! ### Where propagation fails -/

theorem overhead_single (p : Path) (v bw : ℝ) (n : Nat) (tx rx : Dev) :
    overhead [p.delay tx rx] [v] bw n = ⌈p.delay tx rx * bw + 2 * v * n / (bw * light)⌉ := by
  simp [overhead, maxOf]

/-- C77, false of the code: the buffer is shortened when the paths are getting shorter, by more than the
echo can spare: for every target or device approaching at any speed, every sufficiently long signal is
refused with a `ValueError`. -/
theorem C77_length_fails (s : Sample) (p : Path) (v : ℝ) (hp : s.paths = [p]) (hb : 0 < s.bw)
    (hv : p.velocity s.tx s.rx = .ok v) (hneg : v < 0)
    (hI : p.interferes = true → s.tx.num = s.tx.numTx ∧ s.rx.num = s.rx.numRx) :
    ∃ n : Nat, ∀ x : Sig ℂ, n ≤ x.len → x.streams = s.tx.numTx → s.propagate x = .error .value := by
  have hl := light_pos
  have hbl : 0 < s.bw * light := mul_pos hb hl
  obtain ⟨n, hn⟩ := exists_nat_ge (2 * (s.bw * light) / (2 * -v))
  refine ⟨n + 2, fun x hlen hx => ?_⟩
  have hnx : 2 * (s.bw * light) / (2 * -v) ≤ (x.len : ℝ) := by
    have : ((n + 2 : ℕ) : ℝ) ≤ (x.len : ℝ) := by exact_mod_cast hlen
    push_cast at this
    linarith
  have hε : 2 * v * x.len / (s.bw * light) ≤ -2 := by
    rw [div_le_iff₀ hbl]
    rw [div_le_iff₀ (by linarith)] at hnx
    linarith
  unfold Sample.propagate
  rw [hp]
  simp only [velocities, hv, List.map_cons, List.map_nil, overhead_single]
  have hlt : ⌈p.delay s.tx s.rx * s.bw + 2 * v * x.len / (s.bw * light)⌉ <
      (⌊p.delay s.tx s.rx * s.bw⌋₊ : ℤ) := by
    have h1 := Int.ceil_lt_add_one (p.delay s.tx s.rx * s.bw + 2 * v * x.len / (s.bw * light))
    have h2 : p.delay s.tx s.rx * s.bw < (⌊p.delay s.tx s.rx * s.bw⌋₊ : ℝ) + 1 :=
      Nat.lt_floor_add_one _
    have h3 : ((⌈p.delay s.tx s.rx * s.bw + 2 * v * x.len / (s.bw * light)⌉ : ℤ) : ℝ) <
        ((⌊p.delay s.tx s.rx * s.bw⌋₊ : ℤ) : ℝ) := by
      push_cast
      linarith
    exact_mod_cast h3
  generalize ⌈p.delay s.tx s.rx * s.bw + 2 * v * x.len / (s.bw * light)⌉ = o at hlt
  by_cases hneg' : (x.len : ℤ) + o < 0
  · rw [if_pos hneg']
  · rw [if_neg hneg']
    obtain ⟨h1, h2⟩ := dims (rx := s.rx) s.fc hI
    simp only [loop, Path.addPropagation, einsum, if_pos (h2.trans hx.symm), addSlice]
    rw [if_neg]
    rintro ⟨-, h | h⟩ <;> omega

/-- A receiver approaching at ten metres per second. -/
example : ∃ n : Nat, ∀ x : Sig ℂ, n ≤ x.len → x.streams = 1 →
    (demo [.target ![3, 4, 0] 0 1 0 true false] 1 1 (-10) 0).propagate x = .error .value :=
  C77_length_fails (demo [.target ![3, 4, 0] 0 1 0 true false] 1 1 (-10) 0) _ _ rfl
    (by simp [demo, light]) (demo_target _ _ _ _ _ _ _) (by norm_num) (fun h => by cases h)

/-- C77, false of the code: the interference path queries the responses of all antennas, whether they
transmit, receive or both.  If some receiver antenna does not receive, every signal is refused with a
`ValueError`, and so is every request for the channel state long enough to hold the path. -/
theorem C77_interference_fails (s : Sample) (a st : Bool) (v : ℝ)
    (hp : s.paths = [Path.interference a st])
    (hv : (Path.interference a st).velocity s.tx s.rx = .ok v) (hb : 0 < s.bw)
    (hn : s.rx.num ≠ s.rx.numRx) (h1 : s.rx.num ≠ 1) :
    (∀ x : Sig ℂ, s.propagate x = .error .value) ∧
    ∀ smp taps, ⌊(Path.interference a st).delay s.tx s.rx * s.bw⌋₊ < taps →
      s.state smp taps = .error .value := by
  constructor
  · intro x
    unfold Sample.propagate
    rw [hp]
    simp only [velocities, hv]
    split
    · rfl
    · simp only [loop, Path.addPropagation]
      rename_i hlen
      have hrows : ((Path.interference a st).response s.tx s.rx s.fc).rows = s.rx.num := rfl
      rw [hrows]
      cases he : einsum ((Path.interference a st).response s.tx s.rx s.fc) x
          (weight v s.fc s.bw s.time) with
      | error e =>
        dsimp only
        unfold einsum at he
        split at he
        · cases he
        · split at he
          · cases he
          · split at he
            · cases he
            · cases he
              rfl
      | ok e =>
        simp only [addSlice]
        rw [if_neg]
        rintro ⟨h | h, -⟩
        · exact hn h
        · exact h1 h
  · intro smp taps ht
    have h0 : 0 ≤ (Path.interference a st).delay s.tx s.rx * s.bw :=
      mul_nonneg (delay_nonneg _ _ _) hb.le
    have hf : ⌊(Path.interference a st).delay s.tx s.rx * s.bw⌋ =
        (⌊(Path.interference a st).delay s.tx s.rx * s.bw⌋₊ : ℤ) :=
      (Int.natCast_floor_eq_floor h0).symm
    unfold Sample.state
    rw [hp]
    simp only [stateLoop, Path.addState, hv, sub_zero, if_pos h0, hf]
    rw [if_neg (by omega), if_neg]
    rintro ⟨h | h, -⟩
    · exact hn h
    · exact h1 h

/-- A receiver with one receiving and one transmitting antenna. -/
example (x : Sig ℂ) : (demo [.interference true true] 1 2 0 0).propagate x = .error .value :=
  (C77_interference_fails (demo [.interference true true] 1 2 0 0) true true _ rfl
    (demo_interference _ _ _ _ _) (by simp [demo, light]) (by simp [demo, demoRx])
    (by simp [demo, demoRx])).1 x

/-- C77, false of the code: a transmitter with one transmitting antenna and any further antennas that only
receive radiates the signal from all of them towards an interfered receiver. -/
theorem C77_radiating_fails (s : Sample) (a st : Bool) (v : ℝ) (x : Sig ℂ)
    (hp : s.paths = [Path.interference a st])
    (hv : (Path.interference a st).velocity s.tx s.rx = .ok v) (hb : 0 < s.bw)
    (hs : |2 * v * x.len| < s.bw * light) (hx : x.streams = 1) (ht : 1 < s.tx.num)
    (hn : s.rx.num = s.rx.numRx) :
    ∃ y : Sig ℂ, s.propagate x = .ok y ∧ ∀ r, ∀ m < x.len,
      y.val r (⌊(Path.interference a st).delay s.tx s.rx * s.bw⌋₊ + m) = Real.sqrt s.gain *
        (∑ t ∈ range s.tx.num, ((Path.interference a st).response s.tx s.rx s.fc).val r t) *
          x.val 0 m * weight v s.fc s.bw s.time m := by
  have hbd := overhead_bounds s (fun _ => v) x.len hb (by rw [hp]; simpa using hs)
    (by rw [hp]; simp)
  rw [hp] at hbd
  simp only [List.map_cons, List.map_nil, List.mem_singleton, forall_eq, exists_eq_left,
    Path.shift] at hbd
  obtain ⟨hb0, hb1, -⟩ := hbd
  unfold Sample.propagate
  rw [hp]
  simp only [velocities, hv, List.map_cons, List.map_nil]
  generalize hd : (Path.interference a st).delay s.tx s.rx = d at hb0 hb1
  generalize overhead [d] [v] s.bw x.len = o at hb0 hb1
  rw [if_neg (by omega)]
  have hcols : ((Path.interference a st).response s.tx s.rx s.fc).cols = s.tx.num := rfl
  have hrows : ((Path.interference a st).response s.tx s.rx s.fc).rows = s.rx.num := rfl
  simp only [loop, Path.addPropagation, einsum, hcols, hrows]
  rw [if_neg (by omega), if_neg (by omega), if_pos hx, hd]
  simp only [addSlice]
  have hmin : min ((x.len : ℤ) + o).toNat (⌊d * s.bw⌋₊ + x.len) - ⌊d * s.bw⌋₊ = x.len := by omega
  rw [hmin, if_pos ⟨.inl hn, .inl rfl⟩]
  refine ⟨_, rfl, fun r m hm => ?_⟩
  dsimp only
  rw [if_pos ⟨by omega, by omega⟩, if_pos hn, if_pos rfl, Nat.add_sub_cancel_left, zero_add]
  rw [Finset.mul_sum, Finset.sum_mul, Finset.sum_mul, Finset.sum_mul]
  refine Finset.sum_congr rfl fun t _ => ?_
  ring

/-- A transmitter with one transmitting and one receiving antenna sends an impulse: without attenuation and
with a gain of four, the receiver observes twice the amplitude of one antenna. -/
example : ∃ y : Sig ℂ, (demo [.interference false true] 2 1 0 0).propagate ⟨1, 1, fun _ _ => 1⟩ = .ok y ∧
    y.val 0 3 = 4 := by
  obtain ⟨y, hy, h⟩ := C77_radiating_fails (demo [.interference false true] 2 1 0 0) false true _
    ⟨1, 1, fun _ _ => 1⟩ rfl (demo_interference _ _ _ _ _) (by simp [demo, light])
    (by norm_num [demo, light]) rfl (by simp [demo, demoTx]) (by simp [demo, demoRx])
  refine ⟨y, hy, ?_⟩
  have h0 := h 0 0 (by norm_num)
  have hd : ⌊(Path.interference false true).delay (demo [.interference false true] 2 1 0 0).tx
      (demo [.interference false true] 2 1 0 0).rx * (demo [.interference false true] 2 1 0 0).bw⌋₊ = 3 :=
    demo_delay_interference _ _ _ _ _
  rw [hd] at h0
  rw [h0]
  have h4 : Real.sqrt 4 = 2 := by
    rw [show (4 : ℝ) = 2 ^ 2 by norm_num]; exact Real.sqrt_sq (by norm_num)
  simp [demo, demoTx, demoRx, Path.response, inner, weight, h4]
  norm_num

/-! ### Doppler shift -/

/-- C77: a path's delay is what light takes for its length, and its velocity follows the rate at which the
length changes while devices and target move on: the interference path shifts signals in frequency by the
carrier frequency times the rate at which the delay shrinks, which is the Doppler shift. -/
theorem C77_doppler_partial (a st : Bool) (tx rx : Dev) (fc : ℝ) (h : rx.pos ≠ tx.pos) (hf : 0 < fc) :
    ∃ v, (Path.interference a st).velocity tx rx = .ok v ∧
      HasDerivAt (fun t : ℝ => ((Path.interference a st).move t).delay (tx.move t) (rx.move t))
        (-(v * fc / light) / fc) 0 := by
  obtain ⟨v, hv, hd⟩ := interference_rate a st tx rx h
  refine ⟨v, hv, hd.congr_deriv ?_⟩
  have := light_pos.ne'
  field_simp

/-- C77, false of the code: the echo of a target is shifted by the same amount in the opposite direction.
A target or device moving away raises the frequency, an approaching one lowers it. -/
theorem C77_doppler_fails (pos vel : Vec3) (rcs phase : ℝ) (a st : Bool) (tx rx : Dev) (fc : ℝ)
    (h1 : pos ≠ tx.pos) (h2 : pos ≠ rx.pos) (hf : 0 < fc) :
    ∃ v, (Path.target pos vel rcs phase a st).velocity tx rx = .ok v ∧
      HasDerivAt (fun t : ℝ => ((Path.target pos vel rcs phase a st).move t).delay (tx.move t)
        (rx.move t)) (v * fc / light / fc) 0 ∧
      (v ≠ 0 → ¬ HasDerivAt (fun t : ℝ => ((Path.target pos vel rcs phase a st).move t).delay
        (tx.move t) (rx.move t)) (-(v * fc / light) / fc) 0) := by
  obtain ⟨v, hv, hd⟩ := target_rate pos vel rcs phase a st tx rx ⟨h1, h2⟩
  have hl := light_pos.ne'
  have hd' : HasDerivAt (fun t : ℝ => ((Path.target pos vel rcs phase a st).move t).delay (tx.move t)
      (rx.move t)) (v * fc / light / fc) 0 := by
    refine hd.congr_deriv ?_
    field_simp
  refine ⟨v, hv, hd', fun hv0 hn => ?_⟩
  have := hd'.unique hn
  have hne : v * fc / light / fc ≠ 0 := by
    have := hf.ne'
    positivity
  rw [neg_div] at this
  exact hne (by linarith)

/-- A target receding at ten metres per second from a device at rest has the velocity twenty metres per
second and a positive shift. -/
example : ∃ v, (Path.target ![3, 0, 0] ![10, 0, 0] 1 0 true false).velocity
    ⟨0, 0, 1, 1, 1, fun _ _ _ _ _ => 1⟩ ⟨0, 0, 1, 1, 1, fun _ _ _ _ _ => 1⟩ = .ok v ∧ v = 20 := by
  refine ⟨_, velocity_target ⟨?_, ?_⟩, ?_⟩
  · intro h; simpa using congrFun h 0
  · intro h; simpa using congrFun h 0
  · have h3 : Real.sqrt 9 = 3 := by
      rw [show (9 : ℝ) = 3 ^ 2 by norm_num]; exact Real.sqrt_sq (by norm_num)
    simp [dot3, scale, norm3]
    norm_num [h3]

/-! ### Radar equation -/

/-- C77: the power of an echo follows the radar equation: it is proportional to the squared wavelength and
the cross section, and inversely proportional to the squared distances to transmitter and receiver. -/
theorem C77_equation (pos vel : Vec3) (rcs phase : ℝ) (st : Bool) (tx rx : Dev) (fc : ℝ) (hr : 0 ≤ rcs)
    (i j : Nat) :
    ‖((Path.target pos vel rcs phase true st).response tx rx fc).val i j‖ ^ 2 =
      (light / fc) ^ 2 * rcs / ((4 * Real.pi) ^ 3 * ((pos 0 - tx.pos 0) ^ 2 + (pos 1 - tx.pos 1) ^ 2 +
        (pos 2 - tx.pos 2) ^ 2) * ((rx.pos 0 - pos 0) ^ 2 + (rx.pos 1 - pos 1) ^ 2 +
        (rx.pos 2 - pos 2) ^ 2)) * ‖∑ p ∈ range 2, rx.resp .rx fc pos i p * tx.resp .tx fc pos j p‖ ^ 2 := by
  simp only [Path.response, if_true]
  rw [norm_mul, norm_mul, Complex.norm_real, Complex.norm_exp_ofReal_mul_I, mul_one, mul_pow,
    Real.norm_eq_abs, sq_abs]
  congr 1
  rw [div_pow, mul_pow, Real.sq_sqrt hr, mul_pow, mul_pow, norm3_sq, norm3_sq]
  have h4 : ((4 * Real.pi) ^ (1.5 : ℝ)) ^ 2 = (4 * Real.pi) ^ 3 := by
    have hp : 0 ≤ 4 * Real.pi := by positivity
    rw [← Real.rpow_natCast ((4 * Real.pi) ^ (1.5 : ℝ)) 2, ← Real.rpow_mul hp,
      ← Real.rpow_natCast (4 * Real.pi) 3]
    norm_num
  rw [h4]
  rfl

/-- C77: the power over the line of sight follows the transmission equation. -/
theorem C77_transmission (st : Bool) (tx rx : Dev) (fc : ℝ) (i j : Nat) :
    ‖((Path.interference true st).response tx rx fc).val i j‖ ^ 2 =
      (light / fc) ^ 2 / ((4 * Real.pi) ^ 2 * ((rx.pos 0 - tx.pos 0) ^ 2 + (rx.pos 1 - tx.pos 1) ^ 2 +
        (rx.pos 2 - tx.pos 2) ^ 2)) *
        ‖∑ p ∈ range 2, rx.resp .duplex fc tx.pos i p * tx.resp .duplex fc rx.pos j p‖ ^ 2 := by
  simp only [Path.response, if_true]
  rw [norm_mul, Complex.norm_real, mul_pow, Real.norm_eq_abs, sq_abs]
  congr 1
  rw [div_pow, mul_pow, norm3_sq]
  rfl

/-- C77: without attenuation, distances and cross section have no influence. -/
theorem C77_unattenuated (pos vel : Vec3) (rcs phase : ℝ) (st : Bool) (tx rx : Dev) (fc : ℝ) (i j : Nat) :
    ‖((Path.target pos vel rcs phase false st).response tx rx fc).val i j‖ =
      ‖∑ p ∈ range 2, rx.resp .rx fc pos i p * tx.resp .tx fc pos j p‖ := by
  simp only [Path.response, Bool.false_eq_true, if_false]
  rw [norm_mul, norm_mul, Complex.norm_real, Complex.norm_exp_ofReal_mul_I]
  simp [inner]

/-- Twice the distances is a sixteenth of the power. -/
example (d : Dev) (h : d.pos = 0) (fc : ℝ) (hd : d.resp = fun _ _ _ _ _ => 1) :
    ‖((Path.target ![2, 0, 0] 0 1 0 true false).response d d fc).val 0 0‖ ^ 2 =
      ‖((Path.target ![1, 0, 0] 0 1 0 true false).response d d fc).val 0 0‖ ^ 2 / 16 := by
  rw [C77_equation _ _ _ _ _ _ _ _ zero_le_one, C77_equation _ _ _ _ _ _ _ _ zero_le_one]
  simp [h, hd]
  ring

/-! ### Reciprocity -/

theorem dot_neg_neg (a b c d : Vec3) (h : norm3 a = norm3 b) (hab : a = -b) (hcd : c = -d) :
    dot3 (scale a (norm3 a)) c = dot3 (scale b (norm3 b)) d := by
  subst hab hcd
  rw [h]
  simp only [dot3, scale, Pi.neg_apply]
  ring

/-- C77: paths are reciprocal: delay and velocity do not depend on which device transmits, and if the
antennas respond alike in both directions, the response is the transposed one. -/
theorem C77_reciprocal (p : Path) (tx rx : Dev) (fc : ℝ) :
    p.delay rx tx = p.delay tx rx ∧ p.velocity rx tx = p.velocity tx rx ∧
      ((∀ m m' : Mode, tx.resp m = tx.resp m' ∧ rx.resp m = rx.resp m') →
        ∀ i j, (p.response rx tx fc).val i j = (p.response tx rx fc).val j i) := by
  refine ⟨?_, ?_, fun hr i j => ?_⟩
  · cases p with
    | target pos vel rcs phase a s =>
      simp only [Path.delay]
      rw [norm3_sub_comm pos rx.pos, norm3_sub_comm tx.pos pos, add_comm]
    | interference a s =>
      simp only [Path.delay]
      rw [norm3_sub_comm]
  · by_cases hc : p.Clear tx rx
    · cases p with
      | target pos vel rcs phase a s =>
        rw [velocity_target hc, velocity_target (tx := rx) (rx := tx) ⟨hc.2, hc.1⟩]
        congr 1
        rw [dot_neg_neg (pos - rx.pos) (rx.pos - pos) (vel - rx.vel) (rx.vel - vel)
            (norm3_sub_comm _ _) (by simp) (by simp),
          dot_neg_neg (tx.pos - pos) (pos - tx.pos) (tx.vel - vel) (vel - tx.vel)
            (norm3_sub_comm _ _) (by simp) (by simp), add_comm]
      | interference a s =>
        have hc' : (Path.interference a s).Clear rx tx := Ne.symm hc
        rw [velocity_interference hc, velocity_interference hc']
        congr 1
        rw [norm3_sub_comm tx.pos rx.pos]
        simp only [dot3, scale, Pi.sub_apply]
        ring
    · have hc' : ¬ p.Clear rx tx := by
        cases p with
        | target pos vel rcs phase a s => exact fun h => hc ⟨h.2, h.1⟩
        | interference a s => exact fun h => hc (Ne.symm h)
      rw [velocity_error hc, velocity_error hc']
  · have ht := fun m m' => (hr m m').1
    have hrx := fun m m' => (hr m m').2
    cases p with
    | target pos vel rcs phase a s =>
      simp only [Path.response]
      rw [norm3_sub_comm pos rx.pos, norm3_sub_comm tx.pos pos]
      have : inner (tx.resp .rx fc pos) (rx.resp .tx fc pos) i j =
          inner (rx.resp .rx fc pos) (tx.resp .tx fc pos) j i := by
        unfold inner
        rw [ht .rx .tx, hrx .rx .tx]
        exact Finset.sum_congr rfl fun _ _ => mul_comm _ _
      rw [this]
      congr 3
      rw [mul_right_comm]
    | interference a s =>
      simp only [Path.response]
      rw [norm3_sub_comm tx.pos rx.pos]
      congr 1
      unfold inner
      exact Finset.sum_congr rfl fun _ _ => mul_comm _ _

/-- A device all of whose antennas transmit and receive, with the same response. -/
def Dev.Duplex (d : Dev) : Prop := d.numTx = d.num ∧ d.numRx = d.num ∧ ∀ m m' : Mode, d.resp m = d.resp m'

theorem Dev.Duplex.count {d : Dev} (h : d.Duplex) (m : Mode) : d.count m = d.num := by
  cases m <;> simp [Dev.count, h.1, h.2.1]

theorem rows_of {p : Path} {tx rx : Dev} (fc : ℝ) (hr : rx.Duplex) : (p.response tx rx fc).rows = rx.num := by
  cases p <;> simp [Path.response, hr.count]

theorem cols_of {p : Path} {tx rx : Dev} (fc : ℝ) (ht : tx.Duplex) : (p.response tx rx fc).cols = tx.num := by
  cases p <;> simp [Path.response, ht.count]

theorem addState_swap (p : Path) (tx rx : Dev) (bw fc time delay : ℝ) (taps : Nat)
    (st : Nat → Nat → Nat → Nat → ℂ) (ht : tx.Duplex) (hr : rx.Duplex) :
    p.addState rx tx bw fc time delay tx.numRx rx.numTx taps (fun r t s k => st t r s k) =
      (p.addState tx rx bw fc time delay rx.numRx tx.numTx taps st).map fun st r t s k => st t r s k := by
  obtain ⟨hd, hv, hw⟩ := C77_reciprocal p tx rx fc
  have hw := hw fun m m' => ⟨ht.2.2 m m', hr.2.2 m m'⟩
  unfold Path.addState
  rw [hd, hv]
  cases p.velocity tx rx with
  | error e => rfl
  | ok v =>
    simp only [rows_of fc ht, rows_of fc hr, cols_of fc ht, cols_of fc hr, ht.1, ht.2.1, hr.1, hr.2.1]
    generalize (if 0 ≤ p.delay tx rx * bw - delay then ⌊p.delay tx rx * bw - delay⌋
      else ⌈p.delay tx rx * bw - delay⌉) = off
    simp only [true_or, and_self, if_true]
    by_cases h : off < 0 ∨ (taps : ℤ) ≤ off
    · simp only [h, if_true, Except.map]
    · simp only [h, if_false, Except.map, Except.ok.injEq]
      funext r t s k
      rw [hw]

theorem stateLoop_swap (s : Sample) (taps : Nat) (ht : s.tx.Duplex) (hr : s.rx.Duplex) (ps : List Path)
    (st : Nat → Nat → Nat → Nat → ℂ) :
    stateLoop s.reciprocal taps ps (fun r t s k => st t r s k) =
      (stateLoop s taps ps st).map fun st r t s k => st t r s k := by
  induction ps generalizing st with
  | nil => rfl
  | cons p ps ih =>
    unfold stateLoop
    have := addState_swap p s.tx s.rx s.bw s.fc s.time 0 taps st ht hr
    simp only [Sample.reciprocal] at this ⊢
    rw [this]
    cases p.addState s.tx s.rx s.bw s.fc s.time 0 s.rx.numRx s.tx.numTx taps st with
    | error e => rfl
    | ok st' => exact ih st'

/-- C77: between devices all of whose antennas transmit and receive alike, the state of the reciprocal sample
is the reciprocal state, whatever the paths; sampling twice the other way round gives the sample back.
Missing: antennas that only transmit or only receive (`C77_interference_fails`). -/
theorem C77_reciprocal_sample_partial (s : Sample) (smp taps : Nat) (ht : s.tx.Duplex) (hr : s.rx.Duplex) :
    s.reciprocal.state smp taps = (s.state smp taps).bind Verif.Channel.State.reciprocal ∧
      s.reciprocal.reciprocal = s ∧ s.reciprocal.tx = s.rx ∧ s.reciprocal.rx = s.tx := by
  refine ⟨?_, rfl, rfl, rfl⟩
  have h := stateLoop_swap s taps ht hr s.paths fun _ _ _ _ => 0
  unfold Sample.state
  rw [show s.reciprocal.paths = s.paths from rfl, h]
  cases stateLoop s taps s.paths fun _ _ _ _ => 0 with
  | error e => rfl
  | ok st =>
    simp [Except.map, Except.bind, Verif.Channel.State.create, Verif.Channel.State.reciprocal, Sample.reciprocal,
      ht.1, ht.2.1, hr.1, hr.2.1]

example (x : ℝ) : (demo (demoPaths true) 1 1 x 2).tx.Duplex ∧ (demo (demoPaths true) 1 1 x 2).rx.Duplex :=
  ⟨⟨rfl, rfl, fun _ _ => rfl⟩, rfl, rfl, fun _ _ => rfl⟩

/-! ### Null hypothesis -/

/-- C77: sampled at time zero, the null hypothesis removes exactly the echoes of the paths that are not
static.  Missing: other times (`C77_null_fails`). -/
theorem C77_null_partial (s : Sample) (x : Sig ℂ) (v : Path → ℝ) (hb : 0 < s.bw) (h0 : s.time = 0)
    (hx : x.streams = s.tx.numTx) (hv : ∀ p ∈ s.paths, p.velocity s.tx s.rx = .ok (v p))
    (hs : ∀ p ∈ s.paths, |2 * v p * x.len| < s.bw * light)
    (hI : ∀ p ∈ s.paths, p.interferes = true → s.tx.num = s.tx.numTx ∧ s.rx.num = s.rx.numRx) :
    ∃ y z w : Sig ℂ, s.propagate x = .ok y ∧ s.null.propagate x = .ok z ∧
      ({ s with paths := s.paths.filter fun p => !p.static } : Sample).propagate x = .ok w ∧
      ∀ r m, y.val r m = z.val r m + w.val r m := by
  obtain ⟨y, hy, -, -, -, -, hyv⟩ := C77_propagate_partial s x v hb hx hv hs hI
  obtain ⟨z, hz, -, -, -, -, hzv⟩ := C77_propagate_partial s.null x v hb hx
    (fun p hp => hv p (List.mem_of_mem_filter hp)) (fun p hp => hs p (List.mem_of_mem_filter hp))
    (fun p hp => hI p (List.mem_of_mem_filter hp))
  obtain ⟨w, hw, -, -, -, -, hwv⟩ := C77_propagate_partial
    ({ s with paths := s.paths.filter fun p => !p.static } : Sample) x v hb hx
    (fun p hp => hv p (List.mem_of_mem_filter hp)) (fun p hp => hs p (List.mem_of_mem_filter hp))
    (fun p hp => hI p (List.mem_of_mem_filter hp))
  refine ⟨y, z, w, hy, hz, hw, fun r m => ?_⟩
  rw [hyv, hzv, hwv]
  simp only [Sample.null, h0]
  rw [← mul_add]
  congr 1
  have hsplit : ∀ (f : Path → ℂ) (l : List Path), (l.map f).sum =
      ((l.filter Path.static).map f).sum + ((l.filter fun p => !p.static).map f).sum := by
    intro f l
    induction l with
    | nil => simp
    | cons a l ih =>
      rw [List.map_cons, List.sum_cons, ih]
      cases ha : a.static <;> simp [ha] <;> ring
  exact hsplit _ _

/-- C77, false of the code: the null hypothesis forgets the time of the sample.  If the devices move
relative to each other, the line of sight - a static path - contributes to the null hypothesis with
another phase than to the sample itself, unless the Doppler shift happens to have completed whole turns:
taking the null hypothesis of a sample without any target does not return the same channel. -/
theorem C77_null_fails (s : Sample) (a : Bool) (v : ℝ) (hb : 0 < s.bw) (hg : 0 < s.gain)
    (hp : s.paths = [Path.interference a true])
    (hv : (Path.interference a true).velocity s.tx s.rx = .ok v)
    (hs : |2 * v| < s.bw * light) (h1 : s.tx.numTx = 1) (h2 : s.tx.num = 1)
    (h3 : s.rx.num = s.rx.numRx)
    (hr : ((Path.interference a true).response s.tx s.rx s.fc).val 0 0 ≠ 0)
    (ht : ∀ n : ℤ, v * s.fc / light * s.time ≠ n) :
    s.null.paths = s.paths ∧ ∃ y z : Sig ℂ, s.propagate ⟨1, 1, fun _ _ => 1⟩ = .ok y ∧
      s.null.propagate ⟨1, 1, fun _ _ => 1⟩ = .ok z ∧
      y.val 0 ⌊(Path.interference a true).delay s.tx s.rx * s.bw⌋₊ ≠
        z.val 0 ⌊(Path.interference a true).delay s.tx s.rx * s.bw⌋₊ := by
  have hpn : s.null.paths = s.paths := by simp [Sample.null, hp, Path.static]
  have hv' : ∀ p ∈ s.paths, p.velocity s.tx s.rx = .ok v := by simpa [hp] using hv
  have hs' : ∀ p ∈ s.paths, |2 * v * ((1 : ℕ) : ℝ)| < s.bw * light := fun _ _ => by simpa using hs
  have hI : ∀ p ∈ s.paths, p.interferes = true → s.tx.num = s.tx.numTx ∧ s.rx.num = s.rx.numRx :=
    fun _ _ _ => ⟨by omega, h3⟩
  obtain ⟨y, hy, -, -, -, -, hyv⟩ := C77_propagate_partial s ⟨1, 1, fun _ _ => 1⟩ (fun _ => v) hb
    h1.symm hv' hs' hI
  obtain ⟨z, hz, -, -, -, -, hzv⟩ := C77_propagate_partial s.null ⟨1, 1, fun _ _ => 1⟩ (fun _ => v) hb
    h1.symm (by rw [hpn]; exact hv') (by rw [hpn]; exact hs') (by rw [hpn]; exact hI)
  refine ⟨hpn, y, z, hy, hz, fun h => ?_⟩
  rw [hyv, hzv, hpn, hp] at h
  simp only [Sample.null, List.map_cons, List.map_nil, List.sum_cons, List.sum_nil, add_zero, le_refl,
    true_and, h1, Finset.sum_range_one, Nat.sub_self, Nat.cast_zero, zero_div, zero_add,
    Nat.lt_succ_self, if_true, mul_one, mul_zero, Complex.ofReal_zero, Complex.exp_zero] at h
  have hg' : ((Real.sqrt s.gain : ℝ) : ℂ) ≠ 0 := by
    exact_mod_cast (Real.sqrt_pos.mpr hg).ne'
  have h4 := mul_left_cancel₀ hg' h
  have h5 : Complex.exp (2 * Real.pi * Complex.I * ((v * s.fc / light * s.time : ℝ) : ℂ)) = 1 :=
    mul_left_cancel₀ hr (h4.trans (mul_one _).symm)
  rw [Complex.exp_eq_one_iff] at h5
  obtain ⟨n, hn⟩ := h5
  have hpi : (2 * Real.pi * Complex.I : ℂ) ≠ 0 := Complex.two_pi_I_ne_zero
  rw [mul_comm (n : ℂ)] at hn
  have h6 := mul_left_cancel₀ hpi hn
  exact ht n (by exact_mod_cast h6)

/-- A receiver moving at ten metres per second, sampled after a hundredth of a second at a carrier
frequency whose wavelength is one metre. -/
example : ∃ y z : Sig ℂ, (demo [.interference false true] 1 1 10 (1 / 100)).propagate
      ⟨1, 1, fun _ _ => 1⟩ = .ok y ∧
    (demo [.interference false true] 1 1 10 (1 / 100)).null.propagate ⟨1, 1, fun _ _ => 1⟩ = .ok z ∧
    y.val 0 3 ≠ z.val 0 3 := by
  obtain ⟨-, y, z, hy, hz, h⟩ := C77_null_fails (demo [.interference false true] 1 1 10 (1 / 100)) false _
    (by simp [demo, light]) (by simp [demo]) rfl (demo_interference _ _ _ _ _)
    (by norm_num [demo, light, abs_lt]) (by simp [demo, demoTx]) (by simp [demo, demoTx])
    (by simp [demo, demoRx]) (by simp [demo, demoTx, demoRx, Path.response, inner]) (by
      intro n hn
      simp only [demo] at hn
      have hl := light_pos.ne'
      rw [mul_div_assoc, div_self hl] at hn
      have h10 : ((-1 : ℤ) : ℝ) = ((10 * n : ℤ) : ℝ) := by
        push_cast
        linarith
      have : (-1 : ℤ) = 10 * n := by exact_mod_cast h10
      omega)
  refine ⟨y, z, hy, hz, ?_⟩
  have hd : ⌊(Path.interference false true).delay (demo [.interference false true] 1 1 10 (1 / 100)).tx
      (demo [.interference false true] 1 1 10 (1 / 100)).rx *
      (demo [.interference false true] 1 1 10 (1 / 100)).bw⌋₊ = 3 := demo_delay_interference _ _ _ _ _
  rw [hd] at h
  exact h

/-! ### Energy -/

/-- C77: over a single path between two antennas the received energy is the transmitted one, scaled by the
gain and the squared magnitude of the path's response. -/
theorem energy_single (s : Sample) (x : Sig ℂ) (p : Path) (v : ℝ) (hp : s.paths = [p]) (hb : 0 < s.bw)
    (hg : 0 ≤ s.gain) (hx : x.streams = 1) (h1 : s.tx.numTx = 1)
    (hv : p.velocity s.tx s.rx = .ok v) (hs : |2 * v * x.len| < s.bw * light)
    (hI : p.interferes = true → s.tx.num = s.tx.numTx ∧ s.rx.num = s.rx.numRx) :
    ∃ y : Sig ℂ, s.propagate x = .ok y ∧ ∀ r, ∑ m ∈ range y.len, ‖y.val r m‖ ^ 2 =
      s.gain * ‖(p.response s.tx s.rx s.fc).val r 0‖ ^ 2 * ∑ m ∈ range x.len, ‖x.val 0 m‖ ^ 2 := by
  obtain ⟨y, hy, -, hlen, -, -, hyv⟩ := C77_propagate_partial s x (fun _ => v) hb (hx.trans h1.symm)
    (by simpa [hp] using hv) (by simpa [hp] using hs) (by simpa [hp] using hI)
  refine ⟨y, hy, fun r => ?_⟩
  have hl := hlen p (by simp [hp])
  rw [hp] at hyv
  simp only [List.map_cons, List.map_nil, List.sum_cons, List.sum_nil, add_zero, h1,
    Finset.sum_range_one] at hyv
  generalize ⌊p.delay s.tx s.rx * s.bw⌋₊ = d at hyv hl
  have hterm : ∀ m, ‖y.val r m‖ ^ 2 = if d ≤ m ∧ m < d + x.len then
      s.gain * ‖(p.response s.tx s.rx s.fc).val r 0‖ ^ 2 * ‖x.val 0 (m - d)‖ ^ 2 else 0 := by
    intro m
    rw [hyv]
    by_cases hm : d ≤ m ∧ m < d + x.len
    · rw [if_pos hm, if_pos hm]
      have hexp : ∀ θ : ℝ, ‖Complex.exp (2 * Real.pi * Complex.I * (θ : ℂ))‖ = 1 := by
        intro θ
        rw [show (2 * Real.pi * Complex.I * (θ : ℂ)) = ((2 * Real.pi * θ : ℝ) : ℂ) * Complex.I by
          push_cast; ring]
        exact Complex.norm_exp_ofReal_mul_I _
      rw [norm_mul, norm_mul, norm_mul, hexp, mul_one, Complex.norm_real, Real.norm_eq_abs,
        abs_of_nonneg (Real.sqrt_nonneg _), mul_pow, mul_pow, Real.sq_sqrt hg]
      ring
    · rw [if_neg hm, if_neg hm, mul_zero]
      simp
  rw [Finset.sum_congr rfl fun m _ => hterm m, ← Finset.sum_filter, Finset.mul_sum]
  refine Finset.sum_nbij' (fun m => m - d) (fun m => m + d) ?_ ?_ ?_ ?_ ?_
  · intro m hm
    simp only [Finset.mem_filter, Finset.mem_range] at hm ⊢
    omega
  · intro m hm
    simp only [Finset.mem_filter, Finset.mem_range] at hm ⊢
    omega
  · intro m hm
    simp only [Finset.mem_filter, Finset.mem_range] at hm ⊢
    omega
  · intro m hm
    simp
  · intro m hm
    rfl

/-- C77: without attenuation and between two antennas of unit response, the expected energy scale is the one
a single target imposes. -/
theorem C77_energy_partial (s : Sample) (x : Sig ℂ) (pos vel : Vec3) (rcs phase v : ℝ) (st : Bool)
    (hp : s.paths = [.target pos vel rcs phase false st]) (hb : 0 < s.bw) (hg : 0 ≤ s.gain)
    (hx : x.streams = 1) (h1 : s.tx.numTx = 1)
    (hv : (Path.target pos vel rcs phase false st).velocity s.tx s.rx = .ok v)
    (hs : |2 * v * x.len| < s.bw * light)
    (hr : ‖∑ p ∈ range 2, s.rx.resp .rx s.fc pos 0 p * s.tx.resp .tx s.fc pos 0 p‖ = 1) :
    ∃ y : Sig ℂ, s.propagate x = .ok y ∧ ∑ m ∈ range y.len, ‖y.val 0 m‖ ^ 2 =
      s.energyScale * ∑ m ∈ range x.len, ‖x.val 0 m‖ ^ 2 := by
  obtain ⟨y, hy, h⟩ := energy_single s x _ v hp hb hg hx h1 hv hs (fun h => by cases h)
  refine ⟨y, hy, ?_⟩
  rw [h 0, C77_unattenuated, hr]
  simp [Sample.energyScale]

/-- C77, false of the code: the expected energy scale ignores the paths.  With attenuation, the energy of an
echo differs from the expected one by the factor of the radar equation, whatever signal is sent. -/
theorem C77_energy_fails (s : Sample) (x : Sig ℂ) (pos vel : Vec3) (rcs phase v : ℝ) (st : Bool)
    (hp : s.paths = [.target pos vel rcs phase true st]) (hb : 0 < s.bw) (hg : 0 < s.gain)
    (hx : x.streams = 1) (h1 : s.tx.numTx = 1) (hrcs : 0 ≤ rcs)
    (hv : (Path.target pos vel rcs phase true st).velocity s.tx s.rx = .ok v)
    (hs : |2 * v * x.len| < s.bw * light)
    (hr : ‖∑ p ∈ range 2, s.rx.resp .rx s.fc pos 0 p * s.tx.resp .tx s.fc pos 0 p‖ = 1)
    (hx0 : 0 < ∑ m ∈ range x.len, ‖x.val 0 m‖ ^ 2)
    (hne : (light / s.fc) ^ 2 * rcs ≠ (4 * Real.pi) ^ 3 * ((pos 0 - s.tx.pos 0) ^ 2 +
      (pos 1 - s.tx.pos 1) ^ 2 + (pos 2 - s.tx.pos 2) ^ 2) * ((s.rx.pos 0 - pos 0) ^ 2 +
      (s.rx.pos 1 - pos 1) ^ 2 + (s.rx.pos 2 - pos 2) ^ 2)) :
    ∃ y : Sig ℂ, s.propagate x = .ok y ∧ ∑ m ∈ range y.len, ‖y.val 0 m‖ ^ 2 ≠
      s.energyScale * ∑ m ∈ range x.len, ‖x.val 0 m‖ ^ 2 := by
  obtain ⟨y, hy, h⟩ := energy_single s x _ v hp hb hg.le hx h1 hv hs (fun h => by cases h)
  refine ⟨y, hy, fun he => ?_⟩
  rw [h 0, C77_equation _ _ _ _ _ _ _ _ hrcs, hr] at he
  have h2 := mul_right_cancel₀ hx0.ne' he
  unfold Sample.energyScale at h2
  have h3 := mul_left_cancel₀ hg.ne' (h2.trans (mul_one _).symm)
  simp only [one_pow, mul_one] at h3
  have hd : (4 * Real.pi) ^ 3 * ((pos 0 - s.tx.pos 0) ^ 2 +
      (pos 1 - s.tx.pos 1) ^ 2 + (pos 2 - s.tx.pos 2) ^ 2) * ((s.rx.pos 0 - pos 0) ^ 2 +
      (s.rx.pos 1 - pos 1) ^ 2 + (s.rx.pos 2 - pos 2) ^ 2) ≠ 0 := by
    intro h0
    rw [h0, div_zero] at h3
    exact zero_ne_one h3
  exact hne ((div_eq_one_iff_eq hd).mp h3)

/-- The wavelength of one metre and the target of one square metre. -/
example : ∃ y : Sig ℂ, (demo [.target ![3, 4, 0] 0 1 0 true false] 1 1 0 0).propagate
      ⟨1, 1, fun _ _ => 1⟩ = .ok y ∧ ∑ m ∈ range y.len, ‖y.val 0 m‖ ^ 2 ≠ 4 * 1 := by
  have h := C77_energy_fails (demo [.target ![3, 4, 0] 0 1 0 true false] 1 1 0 0) ⟨1, 1, fun _ _ => 1⟩
    ![3, 4, 0] 0 1 0 _ false rfl (by simp [demo, light]) (by simp [demo]) rfl
    (by simp [demo, demoTx]) zero_le_one (demo_target _ _ _ _ _ _ _) (by norm_num [demo, light])
    (by simp [demo, demoTx, demoRx]) (by simp) (by
      have hl := light_pos.ne'
      have hp := Real.two_le_pi
      simp only [demo, demoTx, demoRx, div_self hl]
      simp
      have : (8 : ℝ) ^ 3 ≤ (4 * Real.pi) ^ 3 := pow_le_pow_left₀ (by norm_num) (by linarith) 3
      intro h
      nlinarith)
  simpa [Sample.energyScale, demo] using h

end Verif.RadarChannel
