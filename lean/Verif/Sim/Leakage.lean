import Verif.Signal.Dense
import Mathlib.Analysis.SpecialFunctions.Pow.Real

/-!
# C85: leakage between the transmit and receive chains of a device

`hermespy/simulation/isolation/`.  Numbers are real and complex numbers.  A signal is a list of blocks with their
offsets; a dense signal has a single one.
-/

namespace Verif.SimDev

open Verif.Signal (Arr)

/-- `SignalBlock`. -/
structure Blk where
  offset : ℤ
  a : Arr

/-- `SparseSignal` and `DenseSignal`. -/
structure Sig where
  blocks : List Blk
  rate : ℝ
  carrier : ℝ
  noise : ℝ
  delay : ℝ

/-- `num_streams`, `core/signal_model.py` 1699-1702. -/
def Sig.streams (s : Sig) : ℕ := match s.blocks with | [] => 0 | b :: _ => b.a.M

/-- `Signal.Create` of a list of blocks, `core/signal_model.py` 898-910.  A single block becomes a dense signal; the
view on the block keeps its offset (431-441), and the first of the offsets given is added to the delay. -/
noncomputable def create (blocks : List Blk) (rate carrier noise delay : ℝ) (offsets : Option (List ℤ)) : Sig :=
  if blocks.length ≠ 1 then ⟨blocks, rate, carrier, noise, delay⟩
  else ⟨blocks, rate, carrier, noise, delay + match offsets with | some (o :: _) => o / rate | _ => 0⟩

/-- Instant at which sparse signals place sample `k` of a block when they superimpose a signal, `core/signal_model.py`
`SparseSignal.superimpose`: the delay of the signal and the offset of the block. -/
noncomputable def Sig.instant (s : Sig) (b : Blk) (k : ℕ) : ℝ := s.delay + (b.offset + k) / s.rate

/-- What leakage models ask of their device. -/
structure Dev where
  antennas : ℕ
  transmit : ℕ
  receive : ℕ

/-- Two-dimensional real array. -/
structure Mat where
  R : ℕ
  C : ℕ
  v : ℕ → ℕ → ℝ

/-- `SpecificIsolation`: isolations and leakage factors. -/
structure Specific where
  isolation : Option Mat
  factors : Option Mat

/-- `np.power(isolation, -0.5)`. -/
noncomputable def Mat.factors (m : Mat) : Mat := ⟨m.R, m.C, fun i j => m.v i j ^ (-(1 / 2) : ℝ)⟩

/-- Values of the `isolation` setter: nothing, a number or a matrix. -/
inductive Value where
  | none
  | scalar (x : ℝ)
  | mat (m : Mat)

/-- `isolation` setter, `simulation/isolation/specific.py` 67-91.  Matrices have two dimensions. -/
noncomputable def Specific.set (s : Specific) (dev : Option Dev) : Value → Except PyErr Specific
  | .none => .ok { s with isolation := .none }
  | .scalar x =>
    if ∃ d ∈ dev, d.antennas ≠ 1 then .error .value
    else
      let m : Mat := ⟨1, 1, fun _ _ => x⟩
      .ok ⟨some m, some m.factors⟩
  | .mat m => .ok ⟨some m, some m.factors⟩

/-- Constructor, lines 50-55. -/
noncomputable def Specific.init (dev : Option Dev) (v : Value) : Except PyErr Specific :=
  Specific.set ⟨none, none⟩ dev v

/-- `factors @ block`: the shapes have to fit. -/
noncomputable def Mat.mul (m : Mat) (b : Blk) : Except PyErr Blk :=
  if m.C ≠ b.a.M then .error .value
  else .ok ⟨b.offset, m.R, b.a.N, fun i k => ∑ j ∈ Finset.range m.C, (m.v i j : ℂ) * b.a.x j k⟩

/-- `_assert_leaking_signal`, `simulation/isolation/isolation.py` 81-92.  A `FloatingError` is a `RuntimeError`. -/
def assertLeaking (dev : Option Dev) (s : Option Sig) : Except PyErr (Dev × Sig) :=
  match dev with
  | none => .error .runtime
  | some d =>
    match s with
    | none => .error .value
    | some s => if d.transmit ≠ s.streams then .error .value else .ok (d, s)

/-- `leak` of a specific isolation, `isolation.py` 94-114 and `specific.py` 100-126. -/
noncomputable def Specific.leak (i : Specific) (dev : Option Dev) (s : Option Sig) : Except PyErr Sig :=
  match assertLeaking dev s with
  | .error e => .error e
  | .ok (d, s) =>
    match i.factors with
    | none => .error .runtime
    | some f =>
      if f.R ≠ d.receive then .error .runtime
      else if f.C ≠ d.transmit then .error .runtime
      else
        match s.blocks.mapM f.mul with
        | .error e => .error e
        | .ok bs => .ok (create bs s.rate s.carrier s.noise s.delay (some (s.blocks.map Blk.offset)))

/-- `PerfectIsolation.leak`, `simulation/isolation/perfect.py` 22-36: a dense signal without samples. -/
def perfectLeak (dev : Option Dev) (s : Option Sig) : Except PyErr Sig :=
  match assertLeaking dev s with
  | .error e => .error e
  | .ok (d, s) => .ok ⟨[⟨0, Arr.zeros d.receive 0⟩], s.rate, s.carrier, 0, 0⟩

/-! ### Specific isolation -/

theorem mapM_mul {f : Mat} (l : List Blk) (h : ∀ b ∈ l, b.a.M = f.C) :
    l.mapM f.mul = .ok (l.map fun b =>
      ⟨b.offset, f.R, b.a.N, fun i k => ∑ j ∈ Finset.range f.C, (f.v i j : ℂ) * b.a.x j k⟩) := by
  induction l with
  | nil => rfl
  | cons b l ih =>
    rw [List.mapM_cons, ih fun b' hb' => h b' (by simp [hb'])]
    simp [Mat.mul, h b (by simp), bind, Except.bind, pure, Except.pure]

theorem factor_sq {x : ℝ} (h : 0 < x) : (x ^ (-(1 / 2) : ℝ)) = 1 / √x := by
  rw [Real.rpow_neg h.le, ← Real.sqrt_eq_rpow, one_div]

/-- Signals whose blocks all have `n` streams, and of which a single block has no offset. -/
def Sig.Regular (s : Sig) (n : ℕ) : Prop :=
  s.blocks ≠ [] ∧ (∀ b ∈ s.blocks, b.a.M = n) ∧ ∀ b, s.blocks = [b] → b.offset = 0

/-- C85: whatever was configured before, after assigning a matrix of positive isolations whose shape fits the antennas,
every receive chain gets the sum of the transmitted samples, each divided by the root of the isolation between the
transmit and this receive chain, at the instants of the transmitted samples; rate, carrier and noise power are kept.
Missing for the full claim: single blocks with an offset, see `C85_specific_offset_fails`, and resets to `None`, see
`C85_specific_unset_fails`. -/
theorem C85_specific_partial (old i : Specific) (d : Dev) (m : Mat) (hset : old.set (some d) (.mat m) = .ok i)
    (hR : m.R = d.receive) (hC : m.C = d.transmit) (hpos : ∀ a b, a < m.R → b < m.C → 0 < m.v a b)
    (s : Sig) (hs : s.Regular d.transmit) :
    ∃ r, i.leak (some d) (some s) = .ok r ∧ r.rate = s.rate ∧ r.carrier = s.carrier ∧ r.noise = s.noise ∧
      List.Forall₂ (fun b c : Blk => c.a.M = d.receive ∧ c.a.N = b.a.N ∧ (∀ k, r.instant c k = s.instant b k) ∧
        ∀ p, p < d.receive → ∀ k, c.a.x p k = ∑ q ∈ Finset.range d.transmit, b.a.x q k / (√(m.v p q) : ℝ))
        s.blocks r.blocks := by
  obtain ⟨h0, h1, h2⟩ := hs
  simp only [Specific.set] at hset
  cases hset
  have hst : s.streams = d.transmit := by
    unfold Sig.streams
    cases hb : s.blocks with
    | nil => exact absurd hb h0
    | cons b l => exact h1 b (by simp [hb])
  have hleak : (⟨some m, some m.factors⟩ : Specific).leak (some d) (some s) = .ok (create (s.blocks.map fun b =>
      (⟨b.offset, m.R, b.a.N, fun i k => ∑ j ∈ Finset.range m.C, ((m.v i j ^ (-(1 / 2) : ℝ) : ℝ) : ℂ) * b.a.x j k⟩ : Blk))
      s.rate s.carrier s.noise s.delay (some (s.blocks.map Blk.offset))) := by
    have := mapM_mul (f := m.factors) s.blocks (fun b hb => by rw [h1 b hb]; exact hC.symm)
    unfold Specific.leak assertLeaking
    simp only [hst, ne_eq, not_true_eq_false, if_false]
    rw [if_neg (by simp [Mat.factors, hR]), if_neg (by simp [Mat.factors, hC]), this]
    rfl
  refine ⟨_, hleak, ?_⟩
  have hblocks : ∀ offs, (create (s.blocks.map fun b =>
      (⟨b.offset, m.R, b.a.N, fun i k => ∑ j ∈ Finset.range m.C, ((m.v i j ^ (-(1 / 2) : ℝ) : ℝ) : ℂ) * b.a.x j k⟩ : Blk))
      s.rate s.carrier s.noise s.delay offs).blocks = s.blocks.map fun b =>
      (⟨b.offset, m.R, b.a.N, fun i k => ∑ j ∈ Finset.range m.C, ((m.v i j ^ (-(1 / 2) : ℝ) : ℝ) : ℂ) * b.a.x j k⟩ : Blk) := by
    intro offs; unfold create; split <;> rfl
  have hmeta : ∀ bs offs, (create bs s.rate s.carrier s.noise s.delay offs).rate = s.rate ∧
      (create bs s.rate s.carrier s.noise s.delay offs).carrier = s.carrier ∧
      (create bs s.rate s.carrier s.noise s.delay offs).noise = s.noise := by
    intro bs offs; unfold create; split <;> exact ⟨rfl, rfl, rfl⟩
  have hdelay : ∀ f : Blk → Blk, (create (s.blocks.map f) s.rate s.carrier s.noise s.delay
      (some (s.blocks.map Blk.offset))).delay = s.delay := by
    intro f
    unfold create
    split
    · rfl
    · rename_i hl
      simp only [List.length_map, not_not] at hl
      obtain ⟨b, hb⟩ := List.length_eq_one_iff.mp hl
      simp [hb, h2 b hb]
  refine ⟨(hmeta _ _).1, (hmeta _ _).2.1, (hmeta _ _).2.2, ?_⟩
  rw [hblocks, List.forall₂_map_right_iff]
  refine List.forall₂_same.mpr fun b _ => ⟨hR, rfl, fun k => ?_, fun p hp k => ?_⟩
  · simp only [Sig.instant]
    rw [hdelay, (hmeta _ _).1]
  · simp only
    rw [hC]
    refine Finset.sum_congr rfl fun q hq => ?_
    rw [factor_sq (hpos p q (by omega) (by rw [hC]; exact Finset.mem_range.mp hq))]
    push_cast
    ring

/-- C85: if only one chain transmits, every receive chain gets its power divided by the isolation. -/
theorem C85_specific_power (old i : Specific) (d : Dev) (m : Mat) (hset : old.set (some d) (.mat m) = .ok i)
    (hR : m.R = d.receive) (hC : m.C = d.transmit) (hpos : ∀ a b, a < m.R → b < m.C → 0 < m.v a b)
    (s : Sig) (hs : s.Regular d.transmit) (q : ℕ) (hq : q < d.transmit)
    (honly : ∀ b ∈ s.blocks, ∀ q', q' ≠ q → ∀ k, b.a.x q' k = 0) :
    ∃ r, i.leak (some d) (some s) = .ok r ∧
      List.Forall₂ (fun b c : Blk => ∀ p, p < d.receive → ∀ k, ‖c.a.x p k‖ ^ 2 = ‖b.a.x q k‖ ^ 2 / m.v p q)
        s.blocks r.blocks := by
  obtain ⟨r, h1, -, -, -, h2⟩ := C85_specific_partial old i d m hset hR hC hpos s hs
  refine ⟨r, h1, ?_⟩
  have : ∀ (l l' : List Blk), (∀ b ∈ l, b ∈ s.blocks) → List.Forall₂ (fun b c : Blk => c.a.M = d.receive ∧
      c.a.N = b.a.N ∧ (∀ k, r.instant c k = s.instant b k) ∧
      ∀ p, p < d.receive → ∀ k, c.a.x p k = ∑ q ∈ Finset.range d.transmit, b.a.x q k / (√(m.v p q) : ℝ)) l l' →
      List.Forall₂ (fun b c : Blk => ∀ p, p < d.receive → ∀ k, ‖c.a.x p k‖ ^ 2 = ‖b.a.x q k‖ ^ 2 / m.v p q) l l' := by
    intro l l' hl h
    induction h with
    | nil => exact .nil
    | @cons b c l l' hbc _ ih =>
      refine .cons (fun p hp k => ?_) (ih fun b' hb' => hl b' (by simp [hb']))
      rw [hbc.2.2.2 p hp k, Finset.sum_eq_single q]
      · rw [norm_div, div_pow, Complex.norm_real, Real.norm_of_nonneg (Real.sqrt_nonneg _),
          Real.sq_sqrt (hpos p q (by omega) (by omega)).le]
      · intro q' _ hne
        rw [honly b (hl b (by simp)) q' hne k, zero_div]
      · intro hn; exact absurd (Finset.mem_range.mpr hq) hn
  exact this _ _ (fun _ hb => hb) h2

/-- C85: over every sequence of accepted assignments, the leakage is that of the last value which was not `None`. -/
theorem C85_specific_history (vs : List Value) (dev : Option Dev) (s i : Specific)
    (h : vs.foldlM (fun s v => s.set dev v) s = .ok i) (m : Mat)
    (hm : (vs.filter fun v => match v with | .none => false | _ => true).getLast? = some (.mat m)) :
    i.factors = some m.factors := by
  induction vs generalizing s with
  | nil => simp at hm
  | cons v vs ih =>
    rw [List.foldlM_cons] at h
    cases hv : s.set dev v with
    | error e => rw [hv] at h; simp [bind, Except.bind] at h
    | ok s' =>
      rw [hv] at h
      simp only [bind, Except.bind] at h
      by_cases hz : (vs.filter fun v => match v with | .none => false | _ => true) = []
      · -- nothing but `None` follows
        have hrest : ∀ (vs : List Value) (s' : Specific), (vs.filter fun v => match v with | .none => false | _ => true) = [] →
            vs.foldlM (fun s v => s.set dev v) s' = .ok i → i.factors = s'.factors := by
          intro vs
          induction vs with
          | nil => intro s' _ h; simp only [List.foldlM_nil, pure, Except.pure] at h; cases h; rfl
          | cons w ws ihw =>
            intro s' hw h
            cases w with
            | none =>
              rw [List.foldlM_cons] at h
              exact (ihw { s' with isolation := Option.none } (by simpa using hw) h).trans rfl
            | scalar x => simp at hw
            | mat m => simp at hw
        rw [hrest vs s' hz h]
        cases v with
        | none => simp [hz] at hm
        | scalar x => simp [hz] at hm
        | mat m' =>
          simp [hz] at hm
          subst hm
          simp only [Specific.set] at hv
          cases hv; rfl
      · refine ih s' h ?_
        cases v with
        | none => simpa using hm
        | scalar x =>
          rw [List.filter_cons_of_pos (by rfl)] at hm
          obtain ⟨a, l, e⟩ := List.exists_cons_of_ne_nil hz
          rw [e] at hm ⊢
          rwa [List.getLast?_cons_cons] at hm
        | mat m' =>
          rw [List.filter_cons_of_pos (by rfl)] at hm
          obtain ⟨a, l, e⟩ := List.exists_cons_of_ne_nil hz
          rw [e] at hm ⊢
          rwa [List.getLast?_cons_cons] at hm

/-- C85 fails for isolations set back to `None`: the property is `None`, but the device still leaks as before instead
of raising the error for undefined isolations. -/
theorem C85_specific_unset_fails (old i : Specific) (d : Dev) (m : Mat) (hset : old.set (some d) (.mat m) = .ok i) :
    ∃ j, i.set (some d) .none = .ok j ∧ j.isolation = none ∧ ∀ s, j.leak (some d) s = i.leak (some d) s := by
  simp only [Specific.set] at hset
  cases hset
  exact ⟨_, rfl, rfl, fun s => rfl⟩

/-- C85 fails for signals of a single block with an offset: sparse signals place the leaking samples later than the
transmitted ones by the offset once more. -/
theorem C85_specific_offset_fails (old i : Specific) (d : Dev) (m : Mat) (hset : old.set (some d) (.mat m) = .ok i)
    (hR : m.R = d.receive) (hC : m.C = d.transmit) (s : Sig) (b : Blk) (hb : s.blocks = [b]) (hM : b.a.M = d.transmit)
    (ho : b.offset ≠ 0) (hr : 0 < s.rate) :
    ∃ r c, i.leak (some d) (some s) = .ok r ∧ r.blocks = [c] ∧
      ∀ k, r.instant c k = s.instant b k + b.offset / s.rate ∧ r.instant c k ≠ s.instant b k := by
  simp only [Specific.set] at hset
  cases hset
  have hleak : (⟨some m, some m.factors⟩ : Specific).leak (some d) (some s) = .ok (create (s.blocks.map fun b =>
      (⟨b.offset, m.R, b.a.N, fun i k => ∑ j ∈ Finset.range m.C, ((m.v i j ^ (-(1 / 2) : ℝ) : ℝ) : ℂ) * b.a.x j k⟩ : Blk))
      s.rate s.carrier s.noise s.delay (some (s.blocks.map Blk.offset))) := by
    have := mapM_mul (f := m.factors) s.blocks (fun b' hb' => by
      rw [hb] at hb'; rw [List.mem_singleton.mp hb', hM]; exact hC.symm)
    unfold Specific.leak assertLeaking
    simp only [Sig.streams, hb, hM, ne_eq, not_true_eq_false, if_false]
    rw [hb] at this
    rw [if_neg (by simp [Mat.factors, hR]), if_neg (by simp [Mat.factors, hC]), this]
    rfl
  refine ⟨_, _, hleak, by simp only [create, hb]; rfl, fun k => ?_⟩
  have h1 : (b.offset : ℝ) / s.rate ≠ 0 := div_ne_zero (by exact_mod_cast ho) hr.ne'
  simp only [Sig.instant, create, hb, List.map_cons, List.map_nil, List.length_singleton, ne_eq, not_true_eq_false,
    if_false]
  refine ⟨by ring, fun h => h1 ?_⟩
  linarith

/-- C85: floating models, signals of other stream counts than the transmit antennas and undefined isolations raise
errors, and so do isolations of another shape than the antennas. -/
theorem C85_specific_errors (i : Specific) (d : Dev) (s : Sig) :
    i.leak none (some s) = .error .runtime ∧
    (s.streams ≠ d.transmit → i.leak (some d) (some s) = .error .value) ∧
    (s.streams = d.transmit → i.factors = none → i.leak (some d) (some s) = .error .runtime) ∧
    (s.streams = d.transmit → ∀ f, i.factors = some f → (f.R ≠ d.receive ∨ f.C ≠ d.transmit) →
      i.leak (some d) (some s) = .error .runtime) := by
  refine ⟨rfl, fun h => ?_, fun h h' => ?_, fun h f hf h' => ?_⟩
  · simp [Specific.leak, assertLeaking, Ne.symm h]
  · simp [Specific.leak, assertLeaking, h, h']
  · simp only [Specific.leak, assertLeaking, h, hf]
    rcases h' with h' | h'
    · simp [h']
    · by_cases hr : f.R = d.receive <;> simp [h', hr]

/-- C85: isolations given as a single number are refused for devices of more than one antenna, and otherwise are the
isolation between the only transmit and the only receive chain, whose leakage is weaker in power by exactly this
number. -/
theorem C85_specific_scalar (old : Specific) (d : Dev) (x : ℝ) :
    (d.antennas ≠ 1 → old.set (some d) (.scalar x) = .error .value) ∧
    (d.antennas = 1 → ∃ i m f, old.set (some d) (.scalar x) = .ok i ∧ i.isolation = some m ∧ m.R = 1 ∧ m.C = 1 ∧
      m.v 0 0 = x ∧ i.factors = some f ∧ f.R = 1 ∧ f.C = 1 ∧ (0 < x → f.v 0 0 ^ 2 = 1 / x)) := by
  refine ⟨fun h => ?_, fun h => ⟨⟨some ⟨1, 1, fun _ _ => x⟩, some (Mat.factors ⟨1, 1, fun _ _ => x⟩)⟩,
    ⟨1, 1, fun _ _ => x⟩, Mat.factors ⟨1, 1, fun _ _ => x⟩, ?_, rfl, rfl, rfl, rfl, rfl, rfl, rfl, fun hx => ?_⟩⟩
  · simp [Specific.set, h]
  · simp [Specific.set, h]
  · simp only [Mat.factors]
    rw [← Real.rpow_natCast, ← Real.rpow_mul hx.le]
    norm_num [Real.rpow_neg_one]

example : (∃ i, Specific.init (some ⟨1, 1, 1⟩) (.scalar 100) = .ok i) ∧
    Specific.init (some ⟨2, 2, 2⟩) (.scalar 100) = .error .value :=
  ⟨by obtain ⟨i, _, _, h, _⟩ := (C85_specific_scalar ⟨none, none⟩ ⟨1, 1, 1⟩ 100).2 rfl; exact ⟨i, h⟩,
    (C85_specific_scalar _ _ _).1 (by decide)⟩

/-- C85: without leakage the receive chains get no samples of the transmission, one empty stream for each receive
antenna. -/
theorem C85_perfect (d : Dev) (s : Sig) (h : s.streams = d.transmit) :
    ∃ r, perfectLeak (some d) (some s) = .ok r ∧ r.streams = d.receive ∧ r.rate = s.rate ∧ r.carrier = s.carrier ∧
      ∀ b ∈ r.blocks, b.a.N = 0 := by
  refine ⟨⟨[⟨0, Arr.zeros d.receive 0⟩], s.rate, s.carrier, 0, 0⟩, ?_, rfl, rfl, rfl, ?_⟩
  · simp [perfectLeak, assertLeaking, h]
  · simp [Arr.zeros]

/-! ### Frequency-selective leakage -/

/-- Leakage response of `R` receive and `C` transmit chains and `L` taps. -/
structure Response where
  R : ℕ
  C : ℕ
  L : ℕ
  h : ℕ → ℕ → ℕ → ℂ

/-- `scipy.signal.convolve(a, b, "full")`: empty if one of both is, otherwise the full convolution. -/
noncomputable def convolve (L : ℕ) (a : ℕ → ℂ) (S : ℕ) (b : ℕ → ℂ) : List ℂ :=
  if L = 0 ∨ S = 0 then []
  else (List.range (L + S - 1)).map fun k => ∑ j ∈ Finset.range L, if j ≤ k ∧ k - j < S then a j * b (k - j) else 0

/-- `leaking[m, :] += c`: the length of the addend has to be that of the row, or one. -/
def addRow (row : List ℂ) (c : List ℂ) : Except PyErr (List ℂ) :=
  if c.length = row.length then .ok (List.zipWith (· + ·) row c)
  else match c with
    | [x] => .ok (row.map (· + x))
    | _ => .error .value

/-- Row `m` of the leaking samples, `simulation/isolation/selective.py` 128-134: transmit streams beyond the response
raise an `IndexError`. -/
noncomputable def leakRow (p : Response) (s : Arr) (len m : ℕ) : ℕ → Except PyErr (List ℂ)
  | 0 => .ok (List.replicate len 0)
  | n + 1 =>
    match leakRow p s len m n with
    | .error e => .error e
    | .ok row => if p.C ≤ n then .error .index else addRow row ((convolve p.L (p.h m n) s.N (s.x n)).take len)

/-- `leak` of a dense signal, `isolation.py` 94-114 and `selective.py` 122-142.  Neither the rows nor the columns of the
response are compared with the antennas.  `np.zeros` refuses negative lengths. -/
noncomputable def selectiveLeak (p : Response) (dev : Option Dev) (s : Arr) : Except PyErr (List (List ℂ)) :=
  match dev with
  | none => .error .runtime
  | some d =>
    if d.transmit ≠ s.M then .error .value
    else if p.L + s.N = 0 then .error .value
    else (List.range p.R).mapM fun m => leakRow p s (p.L + s.N - 1) m s.M

theorem convolve_length {L S : ℕ} (a b : ℕ → ℂ) (hL : 0 < L) (hS : 0 < S) : (convolve L a S b).length = L + S - 1 := by
  simp [convolve, hL.ne', hS.ne']

theorem leakRow_ok (p : Response) (s : Arr) (m : ℕ) (hL : 0 < p.L) (hN : 0 < s.N) (n : ℕ) (hn : n ≤ p.C) :
    ∃ row, leakRow p s (p.L + s.N - 1) m n = .ok row ∧ row.length = p.L + s.N - 1 ∧
      ∀ k, k < p.L + s.N - 1 → row.getD k 0 = ∑ q ∈ Finset.range n, ∑ j ∈ Finset.range p.L,
        if j ≤ k ∧ k - j < s.N then p.h m q j * s.x q (k - j) else 0 := by
  induction n with
  | zero =>
    refine ⟨_, rfl, by simp, fun k hk => ?_⟩
    simp [List.getD_eq_getElem?_getD, hk]
  | succ n ih =>
    obtain ⟨row, h1, h2, h3⟩ := ih (by omega)
    have hl := convolve_length (p.h m n) (s.x n) hL hN
    have ht : (convolve p.L (p.h m n) s.N (s.x n)).take (p.L + s.N - 1) = convolve p.L (p.h m n) s.N (s.x n) := by
      rw [List.take_of_length_le (by omega)]
    refine ⟨List.zipWith (· + ·) row (convolve p.L (p.h m n) s.N (s.x n)), ?_, by simp [h2, hl], fun k hk => ?_⟩
    · simp only [leakRow, h1, ht]
      rw [if_neg (by omega)]
      exact if_pos (by omega)
    · have hk1 : k < row.length := by omega
      have hk2 : k < (convolve p.L (p.h m n) s.N (s.x n)).length := by omega
      rw [Finset.sum_range_succ, ← h3 k hk]
      simp only [List.getD_eq_getElem?_getD, List.getElem?_zipWith, List.getElem?_eq_getElem hk1,
        List.getElem?_eq_getElem hk2, Option.getD_some]
      congr 1
      simp [convolve, hL.ne', hN.ne']

theorem mapM_range {α : Type} (f : ℕ → Except PyErr α) (P : ℕ → α → Prop) (R : ℕ) (h : ∀ m, m < R → ∃ a, f m = .ok a ∧ P m a) :
    ∃ l, (List.range R).mapM f = .ok l ∧ l.length = R ∧ ∀ m, m < R → ∃ a, l[m]? = some a ∧ P m a := by
  induction R with
  | zero => exact ⟨[], rfl, rfl, fun m hm => by omega⟩
  | succ R ih =>
    obtain ⟨l, h1, h2, h3⟩ := ih fun m hm => h m (by omega)
    obtain ⟨a, h4, h5⟩ := h R (by omega)
    refine ⟨l ++ [a], ?_, by simp [h2], fun m hm => ?_⟩
    · rw [List.range_succ, List.mapM_append, h1]
      simp [bind, Except.bind, h4, pure, Except.pure]
    · by_cases e : m = R
      · subst e
        exact ⟨a, by rw [List.getElem?_append_right (by omega)]; simp [h2], h5⟩
      · obtain ⟨a', h6, h7⟩ := h3 m (by omega)
        exact ⟨a', by rw [List.getElem?_append_left (by omega)]; exact h6, h7⟩

/-- C85: every receive chain gets the sum over the transmit chains of the convolutions of the transmitted samples with
the impulse response between both chains, at full length.  Missing for the full claim: signals without samples, see
`C85_selective_empty_fails`, and responses of other dimensions, see `C85_selective_shape_fails`. -/
theorem C85_selective_partial (p : Response) (d : Dev) (s : Arr) (hs : s.M = d.transmit) (hC : d.transmit ≤ p.C)
    (hL : 0 < p.L) (hN : 0 < s.N) :
    ∃ rows, selectiveLeak p (some d) s = .ok rows ∧ rows.length = p.R ∧ ∀ m, m < p.R → ∃ row, rows[m]? = some row ∧
      row.length = p.L + s.N - 1 ∧ ∀ k, k < p.L + s.N - 1 → row.getD k 0 =
        ∑ q ∈ Finset.range d.transmit, ∑ j ∈ Finset.range p.L, if j ≤ k ∧ k - j < s.N then p.h m q j * s.x q (k - j) else 0 := by
  simp only [selectiveLeak, hs, ne_eq, not_true_eq_false, if_false]
  rw [if_neg (by omega)]
  exact mapM_range _ (fun m (row : List ℂ) => row.length = p.L + s.N - 1 ∧ ∀ k, k < p.L + s.N - 1 → row.getD k 0 =
    ∑ q ∈ Finset.range d.transmit, ∑ j ∈ Finset.range p.L, if j ≤ k ∧ k - j < s.N then p.h m q j * s.x q (k - j) else 0)
    p.R fun m _ => leakRow_ok p s m hL hN d.transmit hC

/-- C85: a response of a single tap per pair of chains leaks as a matrix of gains. -/
theorem C85_selective_flat (p : Response) (d : Dev) (s : Arr) (hs : s.M = d.transmit) (hC : d.transmit ≤ p.C)
    (hL : p.L = 1) (hN : 0 < s.N) :
    ∃ rows, selectiveLeak p (some d) s = .ok rows ∧ ∀ m, m < p.R → ∃ row, rows[m]? = some row ∧ row.length = s.N ∧
      ∀ k, k < s.N → row.getD k 0 = ∑ q ∈ Finset.range d.transmit, p.h m q 0 * s.x q k := by
  obtain ⟨rows, h1, -, h2⟩ := C85_selective_partial p d s hs hC (by omega) hN
  refine ⟨rows, h1, fun m hm => ?_⟩
  obtain ⟨row, h3, h4, h5⟩ := h2 m hm
  refine ⟨row, h3, by omega, fun k hk => ?_⟩
  rw [h5 k (by omega)]
  refine Finset.sum_congr rfl fun q _ => ?_
  simp [hL, hk]

/-- C85 fails for signals without samples: any response of at least two taps raises a `ValueError`. -/
theorem C85_selective_empty_fails (p : Response) (d : Dev) (s : Arr) (hs : s.M = d.transmit) (hC : d.transmit ≤ p.C)
    (hT : 0 < d.transmit) (hR : 0 < p.R) (hL : 2 ≤ p.L) (hN : s.N = 0) :
    selectiveLeak p (some d) s = .error .value := by
  have hrow : ∀ m n, n < p.C → leakRow p s (p.L + s.N - 1) m (n + 1) = .error .value := by
    intro m n
    induction n with
    | zero =>
      intro hn
      simp only [leakRow]
      rw [if_neg (by omega)]
      have : ¬ 0 = p.L - 1 := by omega
      simp [convolve, hN, addRow, this]
    | succ n ih =>
      intro hn
      rw [leakRow, ih (by omega)]
  simp only [selectiveLeak, hs, ne_eq, not_true_eq_false, if_false]
  rw [if_neg (by omega)]
  obtain ⟨t, ht⟩ : ∃ t, d.transmit = t + 1 := ⟨d.transmit - 1, by omega⟩
  obtain ⟨r, hr⟩ : ∃ r, p.R = r + 1 := ⟨p.R - 1, by omega⟩
  rw [hr, List.range_succ_eq_map, List.mapM_cons, ht, hrow 0 t (by omega)]
  rfl

/-- C85 fails for responses of other dimensions than the antennas: any number of rows is accepted and decides the
number of leaking streams, whatever the number of receive antennas. -/
theorem C85_selective_shape_fails (p : Response) (d : Dev) (s : Arr) (hs : s.M = d.transmit) (hC : d.transmit ≤ p.C)
    (hL : 0 < p.L) (hN : 0 < s.N) (hR : p.R ≠ d.receive) :
    ∃ rows, selectiveLeak p (some d) s = .ok rows ∧ rows.length ≠ d.receive := by
  obtain ⟨rows, h1, h2, -⟩ := C85_selective_partial p d s hs hC hL hN
  exact ⟨rows, h1, by omega⟩

/-- `SelectiveLeakage.Normal`, `selective.py` 65-109: response and device of the new model; `g` are the standard normal
draws of one part of the frequency response. -/
noncomputable def normal (_dev : Dev) (mean variance : ℝ) (g : ℝ) : ℝ × Option Dev :=
  (√(1 / 2) * mean + variance * g, none)

/-- C85 fails for normally distributed responses: the leakage model is not attached to the device it was drawn for and
raises an error, and its parts have the square of the requested variance. -/
theorem C85_normal_fails (dev : Dev) (mean variance : ℝ) (h0 : 0 < variance) (h1 : variance ≠ 1) (g : ℝ) (hg : g ≠ 0)
    (p : Response) (s : Arr) :
    selectiveLeak p (normal dev mean variance g).2 s = .error .runtime ∧
      ((normal dev mean variance g).1 - √(1 / 2) * mean) ^ 2 = variance ^ 2 * g ^ 2 ∧
      ((normal dev mean variance g).1 - √(1 / 2) * mean) ^ 2 ≠ variance * g ^ 2 := by
  have e : ((normal dev mean variance g).1 - √(1 / 2) * mean) ^ 2 = variance ^ 2 * g ^ 2 := by
    simp only [normal]; ring
  refine ⟨rfl, e, ?_⟩
  rw [e]
  intro h
  have hg2 : g ^ 2 ≠ 0 := pow_ne_zero _ hg
  have := mul_right_cancel₀ hg2 h
  have h2 : variance * (variance - 1) = 0 := by linarith [this, sq variance]
  rcases mul_eq_zero.mp h2 with h2 | h2
  · exact h0.ne' h2
  · exact h1 (by linarith)

/-! ### Examples -/

example : ∃ r, (⟨none, none⟩ : Specific).set (some ⟨2, 2, 1⟩) (.mat ⟨1, 2, fun _ j => if j = 0 then 4 else 9⟩) = .ok r ∧
    ∀ a b, a < 1 → b < 2 → (0 : ℝ) < if b = 0 then 4 else 9 := by
  refine ⟨_, rfl, fun a b _ _ => ?_⟩
  split <;> norm_num

example : (⟨[⟨0, 2, 5, fun _ _ => 1⟩, ⟨8, 2, 3, fun _ _ => 1⟩], 1, 0, 0, 0⟩ : Sig).Regular 2 := by
  simp [Sig.Regular]

end Verif.SimDev
