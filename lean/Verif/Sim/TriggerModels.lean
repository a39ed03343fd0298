import Verif.Signal.Dense

/-!
# C84: trigger models of simulated devices

`hermespy/simulation/simulated_device.py` 69-480, and the trigger of a device, 1228-1231 and 1414-1427.  Times and
rates are real numbers.  Devices and trigger models are numbered objects; the set of devices of a trigger model
is a finite set, of which Python may list the members in any order.
-/

namespace Verif.SimDev

open Verif.Signal (truncInt)

/-! ### Realizations -/

/-- `TriggerRealization`. -/
structure Realization where
  samples : ℤ
  rate : ℝ

/-- `TriggerRealization.__init__`, `simulation/simulated_device.py` 94-105. -/
noncomputable def realization (samples : ℤ) (rate : ℝ) : Except PyErr Realization :=
  if samples < 0 then .error .value
  else if rate ≤ 0 then .error .value
  else .ok ⟨samples, rate⟩

/-- `trigger_delay`, line 123. -/
noncomputable def Realization.delay (r : Realization) : ℝ := r.samples / r.rate

/-- `compute_num_offset_samples`, lines 142-147. -/
noncomputable def Realization.offset (r : Realization) (rate initial : ℝ) : Except PyErr ℤ :=
  if rate ≤ 0 then .error .value else .ok (truncInt ((r.delay - initial) * rate))

/-! ### Trigger models -/

/-- The trigger models with their parameters. -/
inductive Kind where
  | fixed
  | samples (n : ℤ)
  | time (offset : ℝ)
  | random
  | normal (mean std : ℝ)

/-- Constructors and setters: lines 276-281, 335-340, 451-456. -/
noncomputable def Kind.make : Kind → Except PyErr Kind
  | .samples n => if n < 0 then .error .value else .ok (.samples n)
  | .time o => if o < 0 then .error .value else .ok (.time o)
  | .normal m s => if s < 0 then .error .value else .ok (.normal m s)
  | k => .ok k

/-- What a trigger model asks of a device: `sampling_rate`, 1503-1514, and `max_frame_duration`,
`core/device.py` 1307-1315. -/
structure Member where
  rate : ℝ
  duration : ℝ

/-- Maximum of the frame durations, lines 376-387, or the error for different rates. -/
noncomputable def longest (rate : ℝ) : ℝ → List Member → Except PyErr ℝ
  | d, [] => .ok d
  | d, m :: ms => if m.rate ≠ rate then .error .runtime else longest rate (max d m.duration) ms

/-- `realize`: lines 227-235, 283-290, 342-351, 369-398, 459-468.  `members` lists the set of devices in the order
chosen by Python; `integers n` is the number drawn by `rng.integers(0, n)`, `gauss` the one drawn by
`rng.normal(mean, std)`. -/
noncomputable def realize (k : Kind) (members : List Member) (integers : ℤ → ℤ) (gauss : ℝ → ℝ → ℝ) :
    Except PyErr Realization :=
  match k, members with
  | .fixed, [] => realization 0 1
  | .fixed, m :: _ => realization 0 m.rate
  | .samples _, [] => .error .runtime
  | .samples n, m :: _ => realization n m.rate
  | .time _, [] => .error .runtime
  | .time o, m :: _ => realization (truncInt (o * m.rate)) m.rate
  | .random, [] => .error .runtime
  | .random, m :: ms =>
    match longest m.rate m.duration ms with
    | .error e => .error e
    | .ok d =>
      let n := truncInt (d * m.rate)
      if n = 0 then realization 0 m.rate else realization (integers n) m.rate
  | .normal mean std, ms =>
    let rate := match ms with | [] => 1 | m :: _ => m.rate
    realization (truncInt (gauss mean std * rate)) rate

/-- Contract of `rng.integers(0, n)` for positive `n`. -/
def Uniform (integers : ℤ → ℤ) : Prop := ∀ n, 0 < n → 0 ≤ integers n ∧ integers n < n

theorem truncInt_of_nonneg {x : ℝ} (h : 0 ≤ x) : truncInt x = ⌊x⌋ := by simp [truncInt, h]

theorem realization_ok {n : ℤ} {r : ℝ} (hn : 0 ≤ n) (hr : 0 < r) : realization n r = .ok ⟨n, r⟩ := by
  simp [realization, not_lt.mpr hn, not_le.mpr hr]

/-- C84: whatever the trigger, whatever is drawn and in whatever order the devices are listed, a realization has a
delay which is not negative and a whole number of samples of the rate of one of the devices (one hertz without
any). -/
theorem C84_realization (k : Kind) (l : List Member) (u : ℤ → ℤ) (g : ℝ → ℝ → ℝ) (r : Realization)
    (h : realize k l u g = .ok r) :
    0 ≤ r.delay ∧ 0 < r.rate ∧ (l = [] ∧ r.rate = 1 ∨ ∃ m ∈ l, m.rate = r.rate) ∧
      ∃ n : ℕ, r.delay = n / r.rate := by
  have key : ∀ n (x : ℝ), realization n x = .ok r → 0 ≤ n ∧ 0 < x ∧ r = ⟨n, x⟩ := by
    intro n x hx
    unfold realization at hx
    split_ifs at hx with h1 h2
    cases hx
    exact ⟨not_lt.mp h1, not_le.mp h2, rfl⟩
  have fin : ∀ n (x : ℝ), realization n x = .ok r → (l = [] ∧ x = 1 ∨ ∃ m ∈ l, m.rate = x) →
      0 ≤ r.delay ∧ 0 < r.rate ∧ (l = [] ∧ r.rate = 1 ∨ ∃ m ∈ l, m.rate = r.rate) ∧
      ∃ n : ℕ, r.delay = n / r.rate := by
    intro n x hx hl
    obtain ⟨h1, h2, rfl⟩ := key n x hx
    refine ⟨div_nonneg (by exact_mod_cast h1) h2.le, h2, hl, n.toNat, ?_⟩
    simp only [Realization.delay]
    congr 1
    have : ((n.toNat : ℤ) : ℝ) = n := by rw [Int.toNat_of_nonneg h1]
    exact_mod_cast this.symm
  cases k with
  | fixed => cases l with
    | nil => exact fin _ _ h (Or.inl ⟨rfl, rfl⟩)
    | cons m ms => exact fin _ _ h (Or.inr ⟨m, by simp, rfl⟩)
  | samples n => cases l with
    | nil => simp [realize] at h
    | cons m ms => exact fin _ _ h (Or.inr ⟨m, by simp, rfl⟩)
  | time o => cases l with
    | nil => simp [realize] at h
    | cons m ms => exact fin _ _ h (Or.inr ⟨m, by simp, rfl⟩)
  | random => cases l with
    | nil => simp [realize] at h
    | cons m ms =>
      simp only [realize] at h
      split at h
      · simp at h
      · split_ifs at h
        · exact fin _ _ h (Or.inr ⟨m, by simp, rfl⟩)
        · exact fin _ _ h (Or.inr ⟨m, by simp, rfl⟩)
  | normal a b => cases l with
    | nil => exact fin _ _ h (Or.inl ⟨rfl, rfl⟩)
    | cons m ms => exact fin _ _ h (Or.inr ⟨m, by simp, rfl⟩)

/-- C84: static triggers are always synchronous with the start of the drop. -/
theorem C84_static (l : List Member) (hl : ∀ m ∈ l, 0 < m.rate) (u : ℤ → ℤ) (g : ℝ → ℝ → ℝ) :
    ∃ r, realize .fixed l u g = .ok r ∧ r.delay = 0 := by
  cases l with
  | nil => exact ⟨⟨0, 1⟩, realization_ok le_rfl one_pos, by simp [Realization.delay]⟩
  | cons m ms => exact ⟨⟨0, m.rate⟩, realization_ok le_rfl (hl m (by simp)), by simp [Realization.delay]⟩

/-- C84: if the devices of a sample offset trigger share their sampling rate, the delay is the configured number of
samples in whatever order they are listed, and a receiver of that rate cuts exactly this number of samples. -/
theorem C84_samples (n : ℤ) (hn : 0 ≤ n) (rate : ℝ) (hr : 0 < rate) (l : List Member) (h0 : l ≠ [])
    (hl : ∀ m ∈ l, m.rate = rate) (u : ℤ → ℤ) (g : ℝ → ℝ → ℝ) :
    ∃ r, realize (.samples n) l u g = .ok r ∧ r.delay = n / rate ∧ r.offset rate 0 = .ok n := by
  cases l with
  | nil => exact absurd rfl h0
  | cons m ms =>
    have hm := hl m (by simp)
    refine ⟨⟨n, m.rate⟩, realization_ok hn (by rw [hm]; exact hr), by simp [Realization.delay, hm], ?_⟩
    simp only [Realization.offset, if_neg (not_le.mpr hr), Realization.delay, hm, sub_zero]
    rw [div_mul_cancel₀ _ hr.ne', Verif.Signal.truncInt_int]

/-- C84: the delay of a time offset trigger is the offset, rounded down to samples of the rate of its devices. -/
theorem C84_time (o : ℝ) (ho : 0 ≤ o) (rate : ℝ) (hr : 0 < rate) (l : List Member) (h0 : l ≠ [])
    (hl : ∀ m ∈ l, m.rate = rate) (u : ℤ → ℤ) (g : ℝ → ℝ → ℝ) :
    ∃ r, realize (.time o) l u g = .ok r ∧ r.delay ≤ o ∧ o < r.delay + 1 / rate ∧ r.rate = rate := by
  cases l with
  | nil => exact absurd rfl h0
  | cons m ms =>
    have hm := hl m (by simp)
    have hp : 0 ≤ o * m.rate := by rw [hm]; positivity
    refine ⟨⟨truncInt (o * m.rate), m.rate⟩, realization_ok ?_ (by rw [hm]; exact hr), ?_, ?_, hm⟩
    · rw [truncInt_of_nonneg hp]; exact Int.floor_nonneg.mpr hp
    · simp only [Realization.delay]
      rw [truncInt_of_nonneg hp, hm, div_le_iff₀ hr]; exact Int.floor_le _
    · simp only [Realization.delay]
      rw [truncInt_of_nonneg hp, hm, ← add_div, lt_div_iff₀ hr]; exact Int.lt_floor_add_one _

theorem longest_ok (rate : ℝ) (l : List Member) (d : ℝ) (hl : ∀ m ∈ l, m.rate = rate) :
    ∃ x, longest rate d l = .ok x ∧ d ≤ x ∧ (∀ m ∈ l, m.duration ≤ x) ∧ (x = d ∨ ∃ m ∈ l, m.duration = x) := by
  induction l generalizing d with
  | nil => exact ⟨d, rfl, le_rfl, by simp, Or.inl rfl⟩
  | cons m ms ih =>
    obtain ⟨x, h1, h2, h3, h4⟩ := ih (max d m.duration) fun m' hm' => hl m' (by simp [hm'])
    refine ⟨x, by simp [longest, hl m (by simp), h1], le_trans (le_max_left _ _) h2, ?_, ?_⟩
    · intro m' hm'
      rcases List.mem_cons.mp hm' with rfl | hm'
      · exact le_trans (le_max_right _ _) h2
      · exact h3 m' hm'
    · rcases h4 with h4 | ⟨m', h4, h5⟩
      · rcases max_cases d m.duration with ⟨h, _⟩ | ⟨h, _⟩
        · exact Or.inl (h4.trans h)
        · exact Or.inr ⟨m, by simp, (h4.trans h).symm⟩
      · exact Or.inr ⟨m', by simp [h4], h5⟩

theorem longest_error (rate : ℝ) (l : List Member) (d : ℝ) (hl : ∃ m ∈ l, m.rate ≠ rate) :
    longest rate d l = .error .runtime := by
  induction l generalizing d with
  | nil => simp at hl
  | cons m ms ih =>
    by_cases hm : m.rate = rate
    · simp only [longest, hm, ne_eq, not_true_eq_false, if_false]
      apply ih
      obtain ⟨m', h1, h2⟩ := hl
      rcases List.mem_cons.mp h1 with rfl | h1
      · exact absurd hm h2
      · exact ⟨m', h1, h2⟩
    · simp [longest, hm]

/-- C84: random triggers delay by at least nothing and less than the longest frame of their devices; if no frame has
the length of a sample, they do not delay at all. -/
theorem C84_random (rate : ℝ) (hr : 0 < rate) (l : List Member) (h0 : l ≠ []) (hl : ∀ m ∈ l, m.rate = rate)
    (hd : ∀ m ∈ l, 0 ≤ m.duration) (u : ℤ → ℤ) (hu : Uniform u) (g : ℝ → ℝ → ℝ) :
    ∃ r, realize .random l u g = .ok r ∧ 0 ≤ r.delay ∧ r.rate = rate ∧
      ((∃ m ∈ l, 1 ≤ m.duration * rate ∧ r.delay < m.duration) ∨
       (∀ m ∈ l, m.duration * rate < 1) ∧ r.delay = 0) := by
  cases l with
  | nil => exact absurd rfl h0
  | cons m ms =>
    have hm := hl m (by simp)
    obtain ⟨x, h1, h2, h3, h4⟩ := longest_ok m.rate ms m.duration fun m' hm' => by rw [hl m' (by simp [hm']), hm]
    have hx : 0 ≤ x := le_trans (hd m (by simp)) h2
    have hxr : 0 ≤ x * m.rate := by rw [hm]; positivity
    have hmem : ∃ m' ∈ m :: ms, m'.duration = x := by
      rcases h4 with h4 | ⟨m', h4, h5⟩
      · exact ⟨m, by simp, h4.symm⟩
      · exact ⟨m', by simp [h4], h5⟩
    have hall : ∀ m' ∈ m :: ms, m'.duration ≤ x := by
      intro m' hm'
      rcases List.mem_cons.mp hm' with rfl | hm'
      · exact h2
      · exact h3 m' hm'
    simp only [realize, h1]
    by_cases hz : truncInt (x * m.rate) = 0
    · rw [if_pos hz]
      refine ⟨⟨0, m.rate⟩, realization_ok le_rfl (by rw [hm]; exact hr), by simp [Realization.delay], hm, Or.inr ⟨?_, by simp [Realization.delay]⟩⟩
      rw [truncInt_of_nonneg hxr, Int.floor_eq_zero_iff] at hz
      intro m' hm'
      have := hz.2
      rw [hm] at this
      exact lt_of_le_of_lt (mul_le_mul_of_nonneg_right (hall m' hm') hr.le) this
    · rw [if_neg hz]
      have hpos : 0 < truncInt (x * m.rate) := by
        rw [truncInt_of_nonneg hxr] at hz ⊢
        exact lt_of_le_of_ne (Int.floor_nonneg.mpr hxr) (Ne.symm hz)
      obtain ⟨hu1, hu2⟩ := hu _ hpos
      have hlt : (u (truncInt (x * m.rate)) : ℝ) < x * m.rate := by
        refine lt_of_lt_of_le (Int.cast_lt.mpr hu2) ?_
        rw [truncInt_of_nonneg hxr]; exact Int.floor_le _
      refine ⟨⟨u (truncInt (x * m.rate)), m.rate⟩, realization_ok hu1 (by rw [hm]; exact hr), ?_, hm, Or.inl ?_⟩
      · exact div_nonneg (by exact_mod_cast hu1) (by rw [hm]; exact hr.le)
      · obtain ⟨m', hm', rfl⟩ := hmem
        refine ⟨m', hm', ?_, ?_⟩
        · rw [truncInt_of_nonneg hxr] at hpos
          have := Int.floor_pos.mp hpos
          rwa [hm] at this
        · simp only [Realization.delay, hm] at hlt ⊢
          rw [div_lt_iff₀ hr]; exact hlt

/-- C84: random triggers refuse devices of different sampling rates in every order of listing. -/
theorem C84_random_rates (l : List Member) (a b : Member) (ha : a ∈ l) (hb : b ∈ l) (hab : a.rate ≠ b.rate)
    (u : ℤ → ℤ) (g : ℝ → ℝ → ℝ) : realize .random l u g = .error .runtime := by
  cases l with
  | nil => simp at ha
  | cons m ms =>
    have : ∃ m' ∈ ms, m'.rate ≠ m.rate := by
      by_cases h1 : a.rate = m.rate
      · rcases List.mem_cons.mp hb with rfl | hb
        · exact absurd h1 hab
        · exact ⟨b, hb, fun h => hab (h1.trans h.symm)⟩
      · rcases List.mem_cons.mp ha with rfl | ha
        · exact absurd rfl h1
        · exact ⟨a, ha, h1⟩
    simp [realize, longest_error m.rate ms m.duration this]

/-- C84: normal triggers delay by the drawn time, rounded down to samples, if it is not negative. -/
theorem C84_normal_partial (mean std : ℝ) (l : List Member) (hl : ∀ m ∈ l, 0 < m.rate) (u : ℤ → ℤ) (g : ℝ → ℝ → ℝ)
    (hg : 0 ≤ g mean std) :
    ∃ r, realize (.normal mean std) l u g = .ok r ∧ r.delay ≤ g mean std ∧ g mean std < r.delay + 1 / r.rate := by
  have main : ∀ x : ℝ, 0 < x → ∃ r, realization (truncInt (g mean std * x)) x = .ok r ∧ r.delay ≤ g mean std ∧
      g mean std < r.delay + 1 / r.rate := by
    intro x hx
    have hp : 0 ≤ g mean std * x := by positivity
    refine ⟨⟨truncInt (g mean std * x), x⟩, realization_ok ?_ hx, ?_, ?_⟩
    · rw [truncInt_of_nonneg hp]; exact Int.floor_nonneg.mpr hp
    · simp only [Realization.delay, truncInt_of_nonneg hp]
      rw [div_le_iff₀ hx]; exact Int.floor_le _
    · simp only [Realization.delay, truncInt_of_nonneg hp]
      rw [← add_div, lt_div_iff₀ hx]; exact Int.lt_floor_add_one _
  cases l with
  | nil => exact main 1 one_pos
  | cons m ms => exact main m.rate (hl m (by simp))

/-- C84 fails for normal triggers: every configuration is accepted whose standard deviation is not negative, but the
realization raises a `ValueError` whenever a time of minus a sample or less is drawn.  With a positive standard
deviation such draws have a positive probability; without, every negative enough mean is drawn always. -/
theorem C84_normal_fails (mean std : ℝ) (hs : 0 ≤ std) (m : Member) (ms : List Member) (hm : 0 < m.rate)
    (u : ℤ → ℤ) (g : ℝ → ℝ → ℝ) (hg : g mean std ≤ -1 / m.rate) :
    Kind.make (.normal mean std) = .ok (.normal mean std) ∧
      realize (.normal mean std) (m :: ms) u g = .error .value := by
  refine ⟨by simp [Kind.make, not_lt.mpr hs], ?_⟩
  have h1 : g mean std * m.rate ≤ -1 := by
    have := mul_le_mul_of_nonneg_right hg hm.le
    rwa [div_mul_cancel₀ _ hm.ne'] at this
  have h2 : truncInt (g mean std * m.rate) < 0 := by
    rw [truncInt, if_neg (by linarith)]
    have : ⌈g mean std * m.rate⌉ ≤ -1 := Int.ceil_le.mpr (by push_cast; exact h1)
    omega
  simp [realize, realization, h2]

/-- C84 fails for groups of different sampling rates: the delay of an offset trigger depends on the order in which
Python lists the set of devices. -/
theorem C84_order_fails (n : ℤ) (hn : 0 < n) (a b : Member) (ha : 0 < a.rate) (hb : 0 < b.rate) (hab : a.rate ≠ b.rate)
    (u : ℤ → ℤ) (g : ℝ → ℝ → ℝ) :
    ∃ r s, realize (.samples n) [a, b] u g = .ok r ∧ realize (.samples n) [b, a] u g = .ok s ∧ r.delay ≠ s.delay := by
  refine ⟨⟨n, a.rate⟩, ⟨n, b.rate⟩, realization_ok hn.le ha, realization_ok hn.le hb, ?_⟩
  simp only [Realization.delay]
  intro h
  rw [div_eq_div_iff ha.ne' hb.ne'] at h
  have hn' : (n : ℝ) ≠ 0 := by exact_mod_cast hn.ne'
  exact hab (mul_left_cancel₀ hn' h).symm

/-- C84: the number of samples at another rate is the delay not yet accounted for, rounded down to whole samples. -/
theorem C84_offset_partial (r : Realization) (rate initial : ℝ) (hr : 0 < rate) (h : initial ≤ r.delay) :
    ∃ n, r.offset rate initial = .ok n ∧ (n : ℝ) ≤ (r.delay - initial) * rate ∧
      (r.delay - initial) * rate < n + 1 := by
  have hp : 0 ≤ (r.delay - initial) * rate := mul_nonneg (by linarith) hr.le
  refine ⟨_, by rw [Realization.offset, if_neg (not_le.mpr hr)], ?_, ?_⟩
  · rw [truncInt_of_nonneg hp]; exact Int.floor_le _
  · rw [truncInt_of_nonneg hp]; exact Int.lt_floor_add_one _

/-- C84: rates which are not positive are refused. -/
theorem C84_offset_rate (r : Realization) (rate initial : ℝ) (hr : rate ≤ 0) :
    r.offset rate initial = .error .value := by simp [Realization.offset, hr]

/-- C84 fails for delays accounted for already beyond the trigger: the result is documented to be rounded to the next
smaller integer, but is rounded up to the next larger one. -/
theorem C84_offset_fails :
    ∃ r : Realization, ∃ rate initial : ℝ, 0 < rate ∧ ∃ n, r.offset rate initial = .ok n ∧
      (r.delay - initial) * rate < n := by
  refine ⟨⟨0, 1⟩, 1, 1 / 2, one_pos, 0, ?_, ?_⟩
  · simp only [Realization.offset, Realization.delay, truncInt]
    norm_num
  · norm_num [Realization.delay]

/-! ### Which devices a trigger model controls -/

/-- Devices and trigger models: `device.trigger_model` and the sets of devices of the trigger models. -/
structure World where
  trigger : ℕ → ℕ
  devices : ℕ → Finset ℕ

/-- `remove_device`, lines 187-195. -/
def World.remove (w : World) (t d : ℕ) : World :=
  { w with devices := Function.update w.devices t ((w.devices t).erase d) }

/-- `self.__devices.add(device)`, line 185. -/
def World.insert (w : World) (t d : ℕ) : World :=
  { w with devices := Function.update w.devices t (Insert.insert d (w.devices t)) }

/-- `trigger_model` setter of a device, lines 1420-1427.  The device refers to the new model when `add_device` is
called, so that this does not call the setter again. -/
def World.assign (w : World) (d t : ℕ) : World :=
  let w := w.remove (w.trigger d) d
  let w := { w with trigger := Function.update w.trigger d t }
  w.insert t d

/-- `add_device`, lines 174-185. -/
def World.add (w : World) (t d : ℕ) : World :=
  let w := if w.trigger d ≠ t then w.assign d t else w
  w.insert t d

/-- Constructor of a device `d`, lines 1228-1231: `own` is the new static trigger created for it. -/
def World.construct (w : World) (d own : ℕ) (t : Option ℕ) : World :=
  let w : World := ⟨Function.update w.trigger d own, Function.update w.devices own {d}⟩
  match t with
  | none => w
  | some t => w.assign d t

/-- What users may do. -/
inductive Op where
  | construct (d own : ℕ) (t : Option ℕ)
  | assign (d t : ℕ)
  | add (t d : ℕ)
  | remove (t d : ℕ)

def World.step (w : World) : Op → World
  | .construct d own t => w.construct d own t
  | .assign d t => w.assign d t
  | .add t d => w.add t d
  | .remove t d => w.remove t d

/-- Admissible programs: only existing devices are assigned, new devices and their triggers are new objects, and no
device is removed by hand. -/
def Admissible : List ℕ → List ℕ → List Op → Prop
  | _, _, [] => True
  | ds, ts, .construct d own t :: ops =>
    d ∉ ds ∧ own ∉ ts ∧ (∀ x, t = some x → x ∈ ts) ∧ Admissible (d :: ds) (own :: ts) ops
  | ds, ts, .assign d t :: ops => d ∈ ds ∧ t ∈ ts ∧ Admissible ds ts ops
  | ds, ts, .add t d :: ops => d ∈ ds ∧ t ∈ ts ∧ Admissible ds ts ops
  | _, _, .remove _ _ :: _ => False

/-- Devices are controlled by the trigger model they refer to, and by no other. -/
def Consistent (w : World) (ds ts : List ℕ) : Prop :=
  (∀ t ∈ ts, ∀ d, d ∈ w.devices t ↔ d ∈ ds ∧ w.trigger d = t) ∧ ∀ d ∈ ds, w.trigger d ∈ ts

theorem assign_consistent {w : World} {ds ts : List ℕ} (h : Consistent w ds ts) {d t : ℕ} (hd : d ∈ ds) (ht : t ∈ ts) :
    Consistent (w.assign d t) ds ts := by
  refine ⟨fun t' ht' d' => ?_, fun d' hd' => ?_⟩
  · simp only [World.assign, World.insert, World.remove, Function.update_apply]
    have h1 := h.1 t' ht' d'
    by_cases e1 : t' = t <;> by_cases e2 : t' = w.trigger d <;> by_cases e3 : d' = d <;>
      simp_all <;> tauto
  · simp only [World.assign, World.insert, World.remove, Function.update_apply]
    split
    · exact ht
    · exact h.2 d' hd'

theorem insert_consistent {w : World} {ds ts : List ℕ} (h : Consistent w ds ts) {d t : ℕ} (hd : d ∈ ds)
    (hw : w.trigger d = t) : Consistent (w.insert t d) ds ts := by
  refine ⟨fun t' ht' d' => ?_, h.2⟩
  have h1 := h.1 t' ht' d'
  simp only [World.insert, Function.update_apply]
  by_cases e1 : t' = t <;> by_cases e3 : d' = d <;> simp_all

theorem add_consistent {w : World} {ds ts : List ℕ} (h : Consistent w ds ts) {d t : ℕ} (hd : d ∈ ds) (ht : t ∈ ts) :
    Consistent (w.add t d) ds ts := by
  unfold World.add
  by_cases e : w.trigger d = t
  · rw [if_neg (by simpa using e)]; exact insert_consistent h hd e
  · rw [if_pos e]
    exact insert_consistent (assign_consistent h hd ht) hd
      (by simp [World.assign, World.insert, World.remove])

theorem construct_consistent {w : World} {ds ts : List ℕ} (h : Consistent w ds ts) {d own : ℕ} (hd : d ∉ ds)
    (ho : own ∉ ts) (t : Option ℕ) (ht : ∀ x, t = some x → x ∈ ts) :
    Consistent (w.construct d own t) (d :: ds) (own :: ts) := by
  have h0 : Consistent ⟨Function.update w.trigger d own, Function.update w.devices own {d}⟩ (d :: ds) (own :: ts) := by
    refine ⟨fun t' ht' d' => ?_, fun d' hd' => ?_⟩
    · simp only [Function.update_apply]
      rcases List.mem_cons.mp ht' with rfl | ht'
      · by_cases e : d' = d
        · simp [e]
        · simp only [if_true, e, if_false, Finset.mem_singleton, List.mem_cons, false_or, false_iff, not_and]
          intro h1 h2
          exact ho (h2 ▸ h.2 d' h1)
      · have hne : t' ≠ own := fun e => ho (e ▸ ht')
        by_cases e : d' = d
        · subst e
          simp only [hne, if_false, if_true, List.mem_cons, true_or, true_and]
          have := h.1 t' ht' d'
          simp only [hd, false_and, iff_false] at this
          exact ⟨fun h => absurd h this, fun h => absurd h.symm hne⟩
        · simp only [hne, e, if_false, List.mem_cons, false_or]
          exact h.1 t' ht' d'
    · simp only [Function.update_apply]
      rcases List.mem_cons.mp hd' with rfl | hd'
      · simp
      · rw [if_neg (fun e : d' = d => hd (e ▸ hd'))]
        exact List.mem_cons_of_mem _ (h.2 d' hd')
  cases t with
  | none => exact h0
  | some x => exact assign_consistent h0 (by simp) (List.mem_cons_of_mem _ (ht x rfl))

/-- Devices and triggers after a program. -/
def after : List ℕ → List ℕ → List Op → List ℕ × List ℕ
  | ds, ts, [] => (ds, ts)
  | ds, ts, .construct d own _ :: ops => after (d :: ds) (own :: ts) ops
  | ds, ts, _ :: ops => after ds ts ops

/-- C84: over all programs which construct devices, assign trigger models and add devices to them, every trigger
model controls exactly the devices which refer to it, so that no device is controlled twice and none by none.
Missing for the full claim: `remove_device`, see `C84_remove_fails`. -/
theorem C84_members_partial (ops : List Op) (w : World) (ds ts : List ℕ) (h : Consistent w ds ts)
    (ha : Admissible ds ts ops) :
    Consistent (ops.foldl World.step w) (after ds ts ops).1 (after ds ts ops).2 := by
  induction ops generalizing w ds ts with
  | nil => exact h
  | cons op ops ih =>
    cases op with
    | construct d own t =>
      obtain ⟨h1, h2, h3, h4⟩ := ha
      exact ih _ _ _ (construct_consistent h h1 h2 t h3) h4
    | assign d t =>
      obtain ⟨h1, h2, h3⟩ := ha
      exact ih _ _ _ (assign_consistent h h1 h2) h3
    | add t d =>
      obtain ⟨h1, h2, h3⟩ := ha
      exact ih _ _ _ (add_consistent h h1 h2) h3
    | remove t d => exact absurd ha (by simp [Admissible])

/-- At the beginning there are only trigger models without devices. -/
example : Consistent ⟨fun _ => 0, fun _ => ∅⟩ [] [7, 8] ∧
    Admissible [] [7, 8] [.construct 0 10 (some 7), .construct 1 11 none, .add 7 1, .assign 0 8] := by
  simp [Consistent, Admissible]

/-- C84 fails for `remove_device`: a device removed from its trigger model still refers to it, and if it was the only
one, offset, random and time triggers cannot be realized any more, so that the device cannot transmit. -/
theorem C84_remove_fails (w : World) (d t : ℕ) (hw : w.trigger d = t) (hs : w.devices t = {d}) (info : ℕ → Member)
    (u : ℤ → ℤ) (g : ℝ → ℝ → ℝ) (n : ℤ) :
    (w.remove t d).trigger d = t ∧ d ∉ (w.remove t d).devices t ∧
      ∀ l : List ℕ, (∀ x, x ∈ l ↔ x ∈ (w.remove t d).devices t) →
        realize (.samples n) (l.map info) u g = .error .runtime ∧ realize .random (l.map info) u g = .error .runtime := by
  refine ⟨hw, by simp [World.remove], fun l hl => ?_⟩
  have : l = [] := by
    rw [List.eq_nil_iff_forall_not_mem]
    intro x hx
    have := (hl x).mp hx
    simp [World.remove, hs] at this
  subst this
  exact ⟨rfl, rfl⟩

example : ∃ r, realize (.samples 3) [⟨2, 5⟩, ⟨2, 1⟩] id (fun _ _ => 0) = .ok r ∧ r.delay = 3 / 2 := by
  obtain ⟨r, h, h1, -⟩ := C84_samples 3 (by norm_num) 2 (by norm_num) [⟨2, 5⟩, ⟨2, 1⟩] (by simp) (by simp) id (fun _ _ => 0)
  exact ⟨r, h, by rw [h1]; norm_num⟩

example : Uniform fun n => n - 1 := fun n hn => ⟨by show 0 ≤ n - 1; omega, by show n - 1 < n; omega⟩

end Verif.SimDev
