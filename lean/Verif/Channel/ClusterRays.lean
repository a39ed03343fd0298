import Verif.Channel.ClusterProps

/-!
# C118: rays, power, line of sight and reciprocity of cluster delay line channels
-/

namespace Verif.Cdl

open Verif Verif.Core Finset
open Verif.Channel.State (Sig Csi)
open Verif.RadarChannel (Dev Mode Mat einsum light maxOf norm3_deriv)

/-! ### Rays -/

/-- C118: every cluster but the first two contributes each of its rays exactly once, at its delay. -/
theorem C118_rays_partial (s : Sample) (hv : s.Valid) (c : Nat) (h2 : 2 ≤ c) (hc : c < s.delays.length) :
    ∃ l, s.plan = .ok l ∧ l.filter (fun e => e.1 = c) =
      (List.range s.rays).map fun (m : Nat) => (c, m, s.delays.getD c 0) := by
  refine ⟨_, plan_eq s hv.clusters hv.rays, ?_⟩
  unfold Sample.schedule
  rw [List.filter_flatMap]
  have hu : used s.rays c = (List.range s.rays).map fun (m : Nat) => (m, (0 : ℝ)) := by
    unfold used
    rw [if_neg (by omega), if_neg (by omega)]
  have hf : ∀ i, (List.map (fun (e : Nat × ℝ) => (i, e.1, s.delays.getD i 0 + s.spread * e.2))
      (used s.rays i)).filter (fun e => decide (e.1 = c)) =
      if i = c then (List.range s.rays).map fun (m : Nat) => (c, m, s.delays.getD c 0) else [] := by
    intro i
    rw [List.filter_map]
    by_cases h : i = c
    · subst h
      rw [if_pos rfl, hu]
      simp [List.filter_map, Function.comp_def]
    · rw [if_neg h]
      simp [Function.comp_def, h]
  have hg : ∀ n, c < n → (List.range n).flatMap (fun i => if i = c then
      (List.range s.rays).map fun (m : Nat) => (c, m, s.delays.getD c 0) else []) =
      (List.range s.rays).map fun (m : Nat) => (c, m, s.delays.getD c 0) := by
    intro n hn
    induction n with
    | zero => omega
    | succ n ih =>
      rw [List.range_succ, List.flatMap_append]
      by_cases h : c = n
      · subst h
        have h0 : (List.range c).flatMap (fun i => if i = c then
            (List.range s.rays).map fun (m : Nat) => (c, m, s.delays.getD c 0) else []) = [] := by
          rw [List.flatMap_eq_nil_iff]
          intro i hi
          rw [if_neg (by have := List.mem_range.mp hi; omega)]
        rw [h0]
        simp
      · rw [ih (by omega)]
        simp [show n ≠ c by omega]
  simp only [hf]
  exact hg _ hc

/-- C118 fails: half of the rays of the first cluster, and all but six rays of the second, are never
propagated: samples which differ in nothing else do the same to all signals and report the same states. -/
theorem C118_rays_fails (s : Sample) (hv : s.Valid) (aoa zoa aod zod : Nat → Nat → ℝ)
    (jones : Nat → Nat → Nat → Nat → ℂ)
    (h : ∀ c m, ¬ (c = 0 ∧ 8 ≤ m ∧ m < 18) → ¬ (c = 1 ∧ m ∉ [8, 9, 10, 11, 16, 17]) →
      aoa c m = s.aoa c m ∧ zoa c m = s.zoa c m ∧ aod c m = s.aod c m ∧ zod c m = s.zod c m ∧
      ∀ p q, jones p q c m = s.jones p q c m) (x : Sig ℂ) (nearest : Bool) (smp taps : Nat) :
    let s' : Sample := { s with aoa := aoa, zoa := zoa, aod := aod, zod := zod, jones := jones }
    s'.propagate nearest x = s.propagate nearest x ∧ s'.state smp taps = s.state smp taps := by
  intro s'
  have hv' : s'.Valid := ⟨hv.clusters, hv.delays, hv.spread, hv.offset, hv.bw, hv.rays⟩
  have hall : s'.all = s.all := by
    unfold Sample.all
    congr 1
    have : s'.schedule = s.schedule := rfl
    rw [this]
    refine List.map_congr_left fun e he => ?_
    unfold Sample.schedule at he
    simp only [List.mem_flatMap, List.mem_range, List.mem_map] at he
    obtain ⟨c, hc, f, hf, rfl⟩ := he
    have hm : ¬ (c = 0 ∧ 8 ≤ f.1 ∧ f.1 < 18) ∧ ¬ (c = 1 ∧ f.1 ∉ [8, 9, 10, 11, 16, 17]) := by
      unfold used at hf
      split_ifs at hf with h0 h1
      · simp only [List.mem_flatMap, List.mem_map] at hf
        obtain ⟨a, _, m, hm, rfl⟩ := hf
        simp at hm
        refine ⟨by omega, by omega⟩
      · simp only [List.mem_flatMap, List.mem_map] at hf
        obtain ⟨a, _, m, hm, rfl⟩ := hf
        exact ⟨by omega, fun h' => h'.2 hm⟩
      · exact ⟨fun h' => h0 h'.1, fun h' => h1 h'.1⟩
    obtain ⟨e1, e2, e3, e4, e5⟩ := h c f.1 hm.1 hm.2
    have e6 : (fun p q => s'.jones p q c f.1) = fun p q => s.jones p q c f.1 := by
      funext p q
      exact e5 p q
    unfold Sample.ray
    dsimp only
    rw [show s'.aoa c f.1 = s.aoa c f.1 from e1, show s'.zoa c f.1 = s.zoa c f.1 from e2,
      show s'.aod c f.1 = s.aod c f.1 from e3, show s'.zod c f.1 = s.zod c f.1 from e4, e6]
    rfl
  have ht : s'.taps = s.taps := by rw [taps_eq hv', taps_eq hv, hall]
  have hloop : ∀ ts w y, s'.loop nearest x w ts y = s.loop nearest x w ts y := by
    intro ts w
    induction ts with
    | nil => intro y; rfl
    | cons t ts ih =>
      intro y
      unfold Sample.loop
      simp only [ih]
      rfl
  have hstate : ∀ depth ts st, s'.stateLoop depth taps ts st = s.stateLoop depth taps ts st := by
    intro depth ts
    induction ts with
    | nil => intro st; rfl
    | cons t ts ih =>
      intro st
      unfold Sample.stateLoop
      simp only [ih]
      rfl
  constructor
  · unfold Sample.propagate
    rw [ht]
    simp only [hloop]
    rfl
  · unfold Sample.state
    rw [ht]
    simp only [hstate]
    rfl

/-! ### Power -/

/-- Devices with a single antenna which responds to vertical polarization only, equally in all directions, and
rays which do not change the magnitude of that polarization. -/
structure Sample.Plain (s : Sample) : Prop where
  rx : ∀ m v, s.rx.resp m s.fc v 0 0 = 1 ∧ s.rx.resp m s.fc v 0 1 = 0
  tx : ∀ m v, s.tx.resp m s.fc v 0 0 = 1 ∧ s.tx.resp m s.fc v 0 1 = 0
  jones : ∀ c m, ‖s.jones 0 0 c m‖ = 1

/-- Power a sample delivers on average over the phases of its contributions. -/
noncomputable def total (ts : List Tap) : ℝ := (ts.map fun t => ‖t.h.val 0 0‖ ^ 2).sum

theorem scatter_sq (s : Sample) : s.scatter ^ 2 = if s.los then 1 / (1 + s.rician) else 1 := by
  have h := rician_pos s
  rw [scatter_eq]
  split_ifs
  · rw [div_pow, Real.sq_sqrt (by have : s.rician = (10 : ℝ) ^ (s.rice / 10) := rfl
                                  rw [← this]; positivity)]
    simp [Sample.rician]
  · norm_num

theorem ray_power {s : Sample} (hp : s.Plain) (e : Nat × Nat × ℝ) (h0 : 0 ≤ s.powers e.1) :
    ‖(s.ray e).h.val 0 0‖ ^ 2 = s.powers e.1 / s.rays * s.scatter ^ 2 := by
  unfold Sample.ray
  dsimp only
  rw [sandwich_eq, (hp.rx _ _).1, (hp.rx _ _).2, (hp.tx _ _).1, (hp.tx _ _).2]
  have : (0 : ℝ) ≤ s.powers e.1 / s.rays := by positivity
  rw [norm_mul, mul_pow]
  simp only [one_mul, mul_one, mul_zero, zero_mul, add_zero, hp.jones, Complex.norm_real, Real.norm_eq_abs, sq_abs]
  rw [mul_pow, Real.sq_sqrt this]
  ring

theorem sum_flatMap_real {α β : Type} (l : List α) (f : α → List β) (g : β → ℝ) :
    ((l.flatMap f).map g).sum = (l.map fun a => ((f a).map g).sum).sum := by
  induction l with
  | nil => rfl
  | cons a l ih => simp [ih]

theorem sum_range_real (n : Nat) (f : Nat → ℝ) : ((List.range n).map f).sum = ∑ c ∈ range n, f c := by
  induction n with
  | zero => simp
  | succ n ih => rw [List.range_succ, List.map_append, List.sum_append, ih, Finset.sum_range_succ]; simp

theorem schedule_power {s : Sample} (hp : s.Plain) (h0 : ∀ c, 0 ≤ s.powers c) :
    total (s.schedule.map s.ray) =
      ∑ c ∈ range s.delays.length, (used s.rays c).length * (s.powers c / s.rays * s.scatter ^ 2) := by
  unfold total Sample.schedule
  rw [List.map_flatMap, sum_flatMap_real, sum_range_real]
  refine Finset.sum_congr rfl fun c _ => ?_
  rw [List.map_map, List.map_map]
  rw [List.map_congr_left (g := fun _ => s.powers c / s.rays * s.scatter ^ 2)]
  · simp
  · intro e _
    simp only [Function.comp_apply]
    exact ray_power hp _ (h0 c)

theorem used_length (c : Nat) : (used 20 c).length = if c = 0 then 30 else if c = 1 then 18 else 20 := by
  unfold used
  split_ifs <;> simp

/-- C118 fails: the power a sample without line of sight delivers is not the sum of its cluster powers, which it
reports as expected energy scale: the first cluster counts one and a half times, the second nine tenths. -/
theorem C118_energy_fails (s : Sample) (hv : s.Valid) (hp : s.Plain) (hl : s.los = false) (h20 : s.rays = 20)
    (h0 : ∀ c, 0 ≤ s.powers c) (h2 : 2 ≤ s.delays.length) :
    ∃ ts, s.taps = .ok ts ∧ total ts = s.energyScale + s.powers 0 / 2 - s.powers 1 / 10 ∧
      (s.powers 1 ≠ 5 * s.powers 0 → total ts ≠ s.energyScale) := by
  have key : total s.all = s.energyScale + s.powers 0 / 2 - s.powers 1 / 10 := by
    have hall : s.all = s.schedule.map s.ray := by simp [Sample.all, hl]
    rw [hall, schedule_power hp h0, scatter_sq, hl, h20]
    obtain ⟨n, hn⟩ : ∃ n, s.delays.length = n + 2 := ⟨s.delays.length - 2, by omega⟩
    unfold Sample.energyScale
    rw [hn, Finset.sum_range_succ', Finset.sum_range_succ', Finset.sum_range_succ' s.powers,
      Finset.sum_range_succ' fun k => s.powers (k + 1)]
    have : ∀ k ∈ range n, ((used 20 (k + 1 + 1)).length : ℝ) * (s.powers (k + 1 + 1) / (20 : ℕ) *
        (if false = true then 1 / (1 + s.rician) else 1)) = s.powers (k + 1 + 1) := by
      intro k _
      rw [used_length, if_neg (by omega), if_neg (by omega)]
      push_cast
      ring
    rw [Finset.sum_congr rfl this, used_length, used_length]
    norm_num
    ring
  refine ⟨_, taps_eq hv, key, fun h => ?_⟩
  rw [key]
  intro h'
  apply h
  linarith

/-- C118: with a single cluster, or if there is line of sight, power is not preserved either; the share of the
line of sight does not depend on the cluster powers. -/
theorem C118_energy_sight_fails (s : Sample) (hv : s.Valid) (hp : s.Plain) (hl : s.los = true)
    (h0 : ∀ c, s.powers c = 0) :
    ∃ ts, s.taps = .ok ts ∧ s.energyScale = 0 ∧
      total ts = (10 : ℝ) ^ (s.rice / 10) / (1 + (10 : ℝ) ^ (s.rice / 10)) ∧ 0 < total ts := by
  have hK := rician_pos s
  have key : total s.all = s.rician / (1 + s.rician) := by
    have hall : s.all = s.schedule.map s.ray ++ [s.sight] := by simp [Sample.all, hl]
    have happ : total (s.schedule.map s.ray ++ [s.sight]) =
        total (s.schedule.map s.ray) + ‖s.sight.h.val 0 0‖ ^ 2 := by simp [total]
    rw [hall, happ, schedule_power hp fun c => (h0 c).ge]
    have hz : ∑ c ∈ range s.delays.length, ((used s.rays c).length : ℝ) *
        (s.powers c / s.rays * s.scatter ^ 2) = 0 := by
      refine Finset.sum_eq_zero fun c _ => ?_
      rw [h0]
      simp
    rw [hz, zero_add]
    unfold Sample.sight
    dsimp only
    rw [sandwich_eq, (hp.rx _ _).1, (hp.rx _ _).2, (hp.tx _ _).1, (hp.tx _ _).2]
    have hr : 0 ≤ s.rician / (1 + s.rician) := by positivity
    simp only [sightJones, if_true, one_mul, mul_one, mul_zero, zero_mul, add_zero, Complex.norm_real,
      Real.norm_eq_abs, sq_abs]
    rw [show (0.5 : ℝ) = 1 / 2 by norm_num, ← Real.sqrt_eq_rpow, Real.sq_sqrt hr]
  refine ⟨_, taps_eq hv, ?_, key, ?_⟩
  · unfold Sample.energyScale
    exact Finset.sum_eq_zero fun c _ => h0 c
  · rw [key]
    positivity

/-! ### Line of sight -/

/-- C118 fails: transmitters of purely horizontal polarization do not reach receivers over the line of sight. -/
theorem C118_horizontal_fails (s : Sample) (h : ∀ t, s.tx.resp .tx s.fc s.rx.pos t 0 = 0) (r t : Nat) :
    s.sight.h.val r t = 0 := by
  unfold Sample.sight
  dsimp only
  rw [sandwich_eq, h t]
  simp [sightJones]

/-- C118 fails: transmitters of purely vertical polarization reach receivers of purely horizontal polarization
over the line of sight as strongly as those of vertical polarization. -/
theorem C118_crosstalk_fails (s : Sample) (r r' t : Nat)
    (hv : s.rx.resp .rx s.fc s.tx.pos r 0 = 1 ∧ s.rx.resp .rx s.fc s.tx.pos r 1 = 0)
    (hh : s.rx.resp .rx s.fc s.tx.pos r' 0 = 0 ∧ s.rx.resp .rx s.fc s.tx.pos r' 1 = 1)
    (ht : s.tx.resp .tx s.fc s.rx.pos t 0 = 1 ∧ s.tx.resp .tx s.fc s.rx.pos t 1 = 0) :
    ‖s.sight.h.val r' t‖ = ‖s.sight.h.val r t‖ ∧ 0 < ‖s.sight.h.val r' t‖ := by
  have hK := rician_pos s
  have hr : 0 < (s.rician / (1 + s.rician)) ^ (0.5 : ℝ) := Real.rpow_pos_of_pos (by positivity) _
  have e1 : s.sight.h.val r' t = -((s.rician / (1 + s.rician)) ^ (0.5 : ℝ) : ℝ) := by
    unfold Sample.sight
    dsimp only
    rw [sandwich_eq, hh.1, hh.2, ht.1, ht.2]
    simp [sightJones]
  have e2 : s.sight.h.val r t = ((s.rician / (1 + s.rician)) ^ (0.5 : ℝ) : ℝ) := by
    unfold Sample.sight
    dsimp only
    rw [sandwich_eq, hv.1, hv.2, ht.1, ht.2]
    simp [sightJones]
  rw [e1, e2, norm_neg, Complex.norm_real, Real.norm_eq_abs, abs_of_pos hr]
  exact ⟨rfl, hr⟩

/-- C118: a ray arriving from a scatterer while the transmitter is at rest turns its phase like a carrier over
a path which gets longer or shorter as the receiver moves. -/
theorem C118_doppler_partial (s : Sample) (Q : Vec3) (e : Nat × Nat × ℝ) (ht : s.tx.vel = 0)
    (hQ : s.rx.pos - Q ≠ 0)
    (hu : fromSpherical (s.aoa e.1 e.2.1) (s.zoa e.1 e.2.1) = scale (Q - s.rx.pos) (norm3 (Q - s.rx.pos))) :
    ∃ ρ : ℝ, HasDerivAt (fun t : ℝ => norm3 (s.rx.pos + t • s.rx.vel - Q)) ρ 0 ∧
      ∀ n, (s.ray e).w n = Complex.exp (-(2 * Real.pi * Complex.I) *
        ((s.fc / light * (ρ * (n / s.bw)) : ℝ) : ℂ)) := by
  have h := norm3_deriv (s.rx.pos - Q) s.rx.vel hQ
  refine ⟨dot3 (scale (s.rx.pos - Q) (norm3 (s.rx.pos - Q))) s.rx.vel, ?_, fun n => ?_⟩
  · have hf : (fun t : ℝ => norm3 (s.rx.pos + t • s.rx.vel - Q)) =
        fun t : ℝ => norm3 (s.rx.pos - Q + t • s.rx.vel) := by
      funext t
      congr 1
      module
    rw [hf]
    exact h
  · have hw : (s.ray e).w n = s.fading (fromSpherical (s.aoa e.1 e.2.1) (s.zoa e.1 e.2.1)) n := rfl
    rw [hw, fading_eq, hu, ht]
    have hn : norm3 (Q - s.rx.pos) = norm3 (s.rx.pos - Q) := Verif.RadarChannel.norm3_sub_comm _ _
    congr 1
    rw [neg_mul, ← mul_neg, ← Complex.ofReal_neg]
    congr 2
    rw [hn]
    simp only [dot3, scale, Pi.sub_apply, Pi.zero_apply]
    ring

/-- C118 fails: the frequency of the line of sight is shifted in the wrong direction: its phase turns like that
of a carrier over a path which gets longer when the devices approach each other, at the rate at which it gets
shorter. -/
theorem C118_doppler_fails (s : Sample) (h : s.rx.pos - s.tx.pos ≠ 0) :
    ∃ ρ : ℝ, HasDerivAt (fun t : ℝ => norm3 (s.rx.pos + t • s.rx.vel - (s.tx.pos + t • s.tx.vel))) ρ 0 ∧
      ∀ n, s.sight.w n = Complex.exp (-(2 * Real.pi * Complex.I) *
        ((s.fc / light * (norm3 (s.rx.pos - s.tx.pos) - ρ * (n / s.bw)) : ℝ) : ℂ)) := by
  have hd := norm3_deriv (s.rx.pos - s.tx.pos) (s.rx.vel - s.tx.vel) h
  refine ⟨dot3 (scale (s.rx.pos - s.tx.pos) (norm3 (s.rx.pos - s.tx.pos))) (s.rx.vel - s.tx.vel), ?_, fun n => ?_⟩
  · have hf : (fun t : ℝ => norm3 (s.rx.pos + t • s.rx.vel - (s.tx.pos + t • s.tx.vel))) =
        fun t : ℝ => norm3 (s.rx.pos - s.tx.pos + t • (s.rx.vel - s.tx.vel)) := by
      funext t
      congr 1
      module
    rw [hf]
    exact hd
  · unfold Sample.sight
    dsimp only
    rw [fading_eq, ← Complex.exp_add]
    congr 1
    push_cast
    ring

/-- C118 fails: a moving transmitter shifts the frequency of a ray by its velocity towards the direction the ray
arrives from at the receiver, whatever direction it departs in. -/
theorem C118_doppler_transmitter_fails (s : Sample) (e : Nat × Nat × ℝ) (hr : s.rx.vel = 0)
    (aod zod : Nat → Nat → ℝ) (n : Nat) :
    ({ s with aod := aod, zod := zod }.ray e).w n = (s.ray e).w n ∧
      (s.ray e).w n = Complex.exp (-(2 * Real.pi * Complex.I) *
        ((s.fc / light * dot3 (fromSpherical (s.aoa e.1 e.2.1) (s.zoa e.1 e.2.1)) s.tx.vel *
          (n / s.bw) : ℝ) : ℂ)) := by
  refine ⟨rfl, ?_⟩
  have hw : (s.ray e).w n = s.fading (fromSpherical (s.aoa e.1 e.2.1) (s.zoa e.1 e.2.1)) n := rfl
  rw [hw, fading_eq, hr]
  congr 1
  rw [neg_mul, ← mul_neg, ← Complex.ofReal_neg]
  congr 2
  simp only [dot3, Pi.sub_apply, Pi.zero_apply]
  ring

/-! ### Reciprocity -/

theorem sandwich_swap (b j a : Nat → Nat → ℂ) (hj : j 0 1 = j 1 0) (r t : Nat) :
    sandwich a j b t r = sandwich b j a r t := by
  rw [sandwich_eq, sandwich_eq, hj]
  ring

/-- C118: the reciprocal of a sample without line of sight has the transposed channel state, if all rays keep the
polarizations they couple when their direction is reversed, antennas respond to the directions they transmit
and receive in alike, and devices do not move relative to each other. -/
theorem C118_reciprocal_partial (s : Sample) (hv : s.Valid) (hl : s.los = false)
    (hj : ∀ c m, s.jones 0 1 c m = s.jones 1 0 c m)
    (htx : s.tx.numRx = s.tx.numTx ∧ s.tx.resp .rx s.fc = s.tx.resp .tx s.fc)
    (hrx : s.rx.numRx = s.rx.numTx ∧ s.rx.resp .rx s.fc = s.rx.resp .tx s.fc)
    (hm : s.rx.vel = s.tx.vel) (smp taps : Nat) :
    ∃ c d : Csi ℂ, s.state smp taps = .ok c ∧ s.reciprocal.state smp taps = .ok d ∧
      d.rx = c.tx ∧ d.tx = c.rx ∧ d.inf = c.inf ∧ ∀ r t n k, d.st t r n k = c.st r t n k := by
  have hv' : s.reciprocal.Valid := ⟨hv.clusters, hv.delays, hv.spread, hv.offset, hv.bw, hv.rays⟩
  obtain ⟨c, hc, -, hc1, hc2, -, hci, hcs⟩ := state_ok hv smp taps
  obtain ⟨d, hd, -, hd1, hd2, -, hdi, hds⟩ := state_ok hv' smp taps
  have hmax : s.reciprocal.maxDelay = s.maxDelay := rfl
  refine ⟨c, d, hc, hd, ?_, ?_, ?_, fun r t n k => ?_⟩
  · rw [hd1, hc2]
    exact htx.1
  · rw [hd2, hc1]
    exact hrx.1.symm
  · have hb : s.reciprocal.bw = s.bw := rfl
    rw [hmax, hb, ← hci] at hdi
    exact_mod_cast hdi
  · rw [hcs, hds]
    have e1 : s.all = s.schedule.map s.ray := by simp [Sample.all, hl]
    have e2 : s.reciprocal.all = s.schedule.map s.reciprocal.ray := by
      have : s.reciprocal.los = false := hl
      simp [Sample.all, this]
      rfl
    rw [e1, e2, List.map_map, List.map_map]
    congr 1
    refine List.map_congr_left fun e _ => ?_
    simp only [Function.comp_apply]
    unfold Sample.entry
    have hsh : s.reciprocal.shift (s.reciprocal.ray e).delay = s.shift (s.ray e).delay := rfl
    rw [hsh]
    split_ifs
    · have hw : (s.reciprocal.ray e).w n = (s.ray e).w n := by
        show s.reciprocal.fading _ n = s.fading _ n
        rw [fading_eq, fading_eq]
        have h1 : s.reciprocal.rx.vel - s.reciprocal.tx.vel = 0 := by
          show s.tx.vel - s.rx.vel = 0
          rw [hm, sub_self]
        have h2 : s.rx.vel - s.tx.vel = 0 := by rw [hm, sub_self]
        rw [h1, h2]
        simp [dot3]
      have hh : (s.reciprocal.ray e).h.val t r = (s.ray e).h.val r t := by
        show sandwich (s.tx.resp .rx s.fc _) _ (s.rx.resp .tx s.fc _) t r * _ =
          sandwich (s.rx.resp .rx s.fc _) _ (s.tx.resp .tx s.fc _) r t * _
        rw [htx.2, hrx.2, sandwich_swap _ _ _ (hj e.1 e.2.1)]
        rfl
      rw [hw, hh]
    · rfl

/-- C118 fails: polarization transformations are not transposed, so that reversing a ray between a vertically
polarized transmitter and a horizontally polarized receiver replaces one random phase by another. -/
theorem C118_reciprocal_fails (s : Sample) (e : Nat × Nat × ℝ)
    (htx : ∀ m v, s.tx.resp m s.fc v 0 0 = 1 ∧ s.tx.resp m s.fc v 0 1 = 0)
    (hrx : ∀ m v, s.rx.resp m s.fc v 0 0 = 0 ∧ s.rx.resp m s.fc v 0 1 = 1)
    (hp : 0 < s.powers e.1) (hr : 0 < s.rays) (hj : s.jones 0 1 e.1 e.2.1 ≠ s.jones 1 0 e.1 e.2.1) :
    (s.reciprocal.ray e).h.val 0 0 ≠ (s.ray e).h.val 0 0 := by
  have h1 : (s.ray e).h.val 0 0 = s.jones 1 0 e.1 e.2.1 * (Real.sqrt (s.powers e.1 / s.rays) * s.scatter : ℝ) := by
    show sandwich (s.rx.resp .rx s.fc _) _ (s.tx.resp .tx s.fc _) 0 0 * _ = _
    rw [sandwich_eq, (htx _ _).1, (htx _ _).2, (hrx _ _).1, (hrx _ _).2]
    simp
  have h2 : (s.reciprocal.ray e).h.val 0 0 =
      s.jones 0 1 e.1 e.2.1 * (Real.sqrt (s.powers e.1 / s.rays) * s.scatter : ℝ) := by
    show sandwich (s.tx.resp .rx s.fc _) _ (s.rx.resp .tx s.fc _) 0 0 * _ = _
    rw [sandwich_eq, (htx _ _).1, (htx _ _).2, (hrx _ _).1, (hrx _ _).2]
    simp
    rfl
  rw [h1, h2]
  intro h
  have hs : 0 < s.scatter := by
    have := rician_pos s
    unfold Sample.scatter
    split_ifs
    · exact Real.rpow_pos_of_pos (by linarith) _
    · norm_num
  have hq : (0 : ℝ) < Real.sqrt (s.powers e.1 / s.rays) * s.scatter := by positivity
  exact hj (mul_right_cancel₀ (Complex.ofReal_ne_zero.mpr hq.ne') h)

/-! ### Directions -/

/-- C118 fails: the direction of a ray is handed to the antenna arrays as if it was a position, so that an array
which is not located at the origin takes it for a point source around the origin: the further away the array,
the less does the direction it sees depend on the ray. -/
theorem C118_direction_fails (a : Ant.Array) (R : Mat3) (p : Vec3) (hF : a.forwards = assemble R p)
    (hp : 1 < norm3 p) (azimuth zenith : ℝ) :
    ∃ d, a.direction (.position (fromSpherical azimuth zenith)) .global = .ok d ∧
      1 - 2 / (norm3 p + 1) ≤ dot3 d (scale (-p) (norm3 p)) := by
  set u := fromSpherical azimuth zenith with hu
  have huu : dot3 u u = 1 := by
    rw [hu]
    simp only [dot3, fromSpherical, Matrix.cons_val]
    have h1 := Real.sin_sq_add_cos_sq azimuth
    have h2 := Real.sin_sq_add_cos_sq zenith
    nlinarith
  have hu1 : norm3 u = 1 := by rw [Ant.norm3_eq, huu, Real.sqrt_one]
  have hpp : dot3 p p = norm3 p ^ 2 := by
    rw [Ant.norm3_eq, Real.sq_sqrt]
    simp only [dot3]
    nlinarith [sq_nonneg (p 0), sq_nonneg (p 1), sq_nonneg (p 2)]
  have hcs := abs_le.mp (Ant.dot3_le u p)
  rw [hu1, one_mul] at hcs
  have hq : dot3 (u - p) (u - p) = 1 - 2 * dot3 u p + norm3 p ^ 2 := by
    rw [← hpp, ← huu]
    simp only [dot3, Pi.sub_apply]
    ring
  have hle : norm3 (u - p) ≤ norm3 p + 1 := by
    rw [Ant.norm3_eq, hq]
    apply Real.sqrt_le_iff.mpr
    constructor
    · linarith
    · nlinarith [hcs.1]
  have hpos : 0 < norm3 (u - p) := by
    rw [Ant.norm3_eq, hq]
    apply Real.sqrt_pos.mpr
    nlinarith [hcs.2]
  have hne : u - p ≠ 0 := by
    intro h
    rw [h] at hpos
    simp [norm3] at hpos
  refine ⟨scale (u - p) (norm3 (u - p)), ?_, ?_⟩
  · unfold Ant.Array.direction
    rw [hF, Ant.translation_of]
    exact Ant.fromCartesian_norm hne
  · have hd : dot3 (scale (u - p) (norm3 (u - p))) (scale (-p) (norm3 p)) =
        (norm3 p ^ 2 - dot3 u p) / (norm3 (u - p) * norm3 p) := by
      rw [← hpp]
      simp only [dot3, scale, Pi.sub_apply, Pi.neg_apply]
      field_simp
      ring
    rw [hd, le_div_iff₀ (by positivity)]
    have h1 : (1 - 2 / (norm3 p + 1)) * (norm3 (u - p) * norm3 p) ≤
        (1 - 2 / (norm3 p + 1)) * ((norm3 p + 1) * norm3 p) := by
      apply mul_le_mul_of_nonneg_left
      · exact mul_le_mul_of_nonneg_right hle (by linarith)
      · rw [sub_nonneg, div_le_one (by linarith)]
        linarith
    have h2 : (1 - 2 / (norm3 p + 1)) * ((norm3 p + 1) * norm3 p) = (norm3 p - 1) * norm3 p := by
      field_simp
      ring
    rw [h2] at h1
    nlinarith [hcs.2]

/-! ### Angular spreads -/

theorem weighted_le : ∀ (angles powers : List ℝ), (∀ p ∈ powers, 0 ≤ p) → angles.length = powers.length →
    ‖(List.zipWith (fun (a p : ℝ) => Complex.exp (Complex.I * a) * p) angles powers).sum‖ ≤ powers.sum
  | [], [], _, _ => by simp
  | [], _ :: _, _, h => by simp at h
  | _ :: _, [], _, h => by simp at h
  | a :: as, p :: ps, h0, hl => by
    have ih := weighted_le as ps (fun q hq => h0 q (List.mem_cons_of_mem _ hq)) (by simpa using hl)
    have hp := h0 p (by simp)
    rw [List.zipWith_cons_cons, List.sum_cons, List.sum_cons]
    refine (norm_add_le _ _).trans (add_le_add ?_ ih)
    rw [norm_mul, mul_comm Complex.I, Complex.norm_exp_ofReal_mul_I, one_mul, Complex.norm_real, Real.norm_eq_abs,
      abs_of_nonneg hp]

theorem weighted_shift (θ : ℝ) : ∀ (angles powers : List ℝ),
    (List.zipWith (fun (a p : ℝ) => Complex.exp (Complex.I * a) * p) (angles.map fun a => a + θ) powers).sum =
      Complex.exp (Complex.I * θ) *
        (List.zipWith (fun (a p : ℝ) => Complex.exp (Complex.I * a) * p) angles powers).sum
  | [], _ => by simp
  | _ :: _, [] => by simp
  | a :: as, p :: ps => by
    rw [List.map_cons, List.zipWith_cons_cons, List.zipWith_cons_cons, List.sum_cons, List.sum_cons,
      weighted_shift θ as ps]
    push_cast
    rw [mul_add, Complex.exp_add]
    ring

/-- C118: the angular spread is the non-negative number whose square is minus twice the logarithm of the length of
the mean direction (unless that vanishes), does not depend on where angles are counted from, and vanishes if all
rays have the same angle; angles and powers which do not match are refused. -/
theorem C118_spread (angles powers : List ℝ) (h0 : ∀ p ∈ powers, 0 ≤ p) (hp : 0 < powers.sum) :
    (angles.length ≠ powers.length → angularSpread angles powers = .error .value) ∧
    (angles.length = powers.length →
      ((List.zipWith (fun (a p : ℝ) => Complex.exp (Complex.I * a) * p) angles powers).sum ≠ 0 →
        ∃ σ : ℝ, 0 ≤ σ ∧ angularSpread angles powers = .ok σ ∧ Real.exp (-(σ ^ 2) / 2) =
          ‖(List.zipWith (fun (a p : ℝ) => Complex.exp (Complex.I * a) * p) angles powers).sum‖ / powers.sum) ∧
      (∀ θ, angularSpread (angles.map fun a => a + θ) powers = angularSpread angles powers) ∧
      ((∃ θ, ∀ a ∈ angles, a = θ) → angularSpread angles powers = .ok 0)) := by
  refine ⟨fun h => by simp [angularSpread, h], fun hl => ?_⟩
  set W := (List.zipWith (fun (a p : ℝ) => Complex.exp (Complex.I * a) * p) angles powers).sum with hW
  have hval : angularSpread angles powers = .ok (Real.sqrt (-2 * Real.log ‖W / (powers.sum : ℂ)‖)) := by
    unfold angularSpread
    rw [if_neg (by simpa using hl)]
  have hnorm : ‖W / (powers.sum : ℂ)‖ = ‖W‖ / powers.sum := by
    rw [norm_div, Complex.norm_real, Real.norm_eq_abs, abs_of_pos hp]
  have hle : ‖W‖ / powers.sum ≤ 1 := (div_le_one hp).mpr (weighted_le angles powers h0 hl)
  have hge : 0 ≤ ‖W‖ / powers.sum := div_nonneg (norm_nonneg _) hp.le
  refine ⟨fun hne => ⟨Real.sqrt (-2 * Real.log (‖W‖ / powers.sum)), Real.sqrt_nonneg _, ?_, ?_⟩, fun θ => ?_, ?_⟩
  · rw [hval, hnorm]
  · have hlog := Real.log_nonpos hge hle
    rw [Real.sq_sqrt (by linarith),
      show -(-2 * Real.log (‖W‖ / powers.sum)) / 2 = Real.log (‖W‖ / powers.sum) by ring,
      Real.exp_log (div_pos (norm_pos_iff.mpr hne) hp)]
  · unfold angularSpread
    rw [if_neg (by simpa using hl), if_neg (by simpa using hl)]
    dsimp only
    rw [weighted_shift, mul_div_assoc, norm_mul, mul_comm Complex.I, Complex.norm_exp_ofReal_mul_I, one_mul]
  · rintro ⟨θ, hθ⟩
    have hw : W = Complex.exp (Complex.I * θ) * (powers.sum : ℝ) := by
      rw [hW]
      clear hval hnorm hle hge hW W hp
      induction angles generalizing powers with
      | nil =>
        cases powers with
        | nil => simp
        | cons p ps => simp at hl
      | cons a as ih =>
        cases powers with
        | nil => simp at hl
        | cons p ps =>
          rw [List.zipWith_cons_cons, List.sum_cons, List.sum_cons,
            ih ps (fun q hq => h0 q (List.mem_cons_of_mem _ hq)) (by simpa using hl)
              (fun b hb => hθ b (List.mem_cons_of_mem _ hb)), hθ a (by simp)]
          push_cast
          ring
    rw [hval, hnorm, hw, norm_mul, mul_comm Complex.I, Complex.norm_exp_ofReal_mul_I, one_mul, Complex.norm_real,
      Real.norm_eq_abs, abs_of_pos hp, div_self hp.ne']
    simp

/-! ### The hypotheses can be met -/

/-- A device with one vertically polarized antenna. -/
noncomputable def vertical (pos vel : Vec3) : Dev :=
  ⟨pos, vel, 1, 1, 1, fun _ _ _ _ p => if p = 0 then 1 else 0⟩

/-- A sample of three clusters with devices a hundred metres apart. -/
noncomputable def someSample (los : Bool) : Sample where
  los := los
  rice := 9
  aoa := fun c m => c + m / 10
  zoa := fun c m => 1 + m / 20
  aod := fun c m => 2 - c - m / 10
  zod := fun _ _ => 1
  rays := 20
  offset := 1 / 3000000
  delays := [0, 1 / 1000000, 3 / 1000000]
  spread := 1 / 2000000
  powers := fun c => if c = 0 then 1 / 2 else if c = 1 then 1 / 4 else 1 / 4
  jones := fun p q _ m => if p = q then 1 else if m = p then 1 / 10 else -1 / 10
  tx := vertical 0 0
  rx := vertical ![100, 0, 0] ![3, 0, 1]
  fc := 1000000000
  bw := 10000000

theorem someSample_valid (los : Bool) : (someSample los).Valid := by
  refine ⟨by simp [someSample], ?_, ?_, ?_, ?_, ?_⟩
  · intro d hd
    simp only [someSample, List.mem_cons, List.not_mem_nil, or_false] at hd
    rcases hd with rfl | rfl | rfl <;> norm_num
  all_goals norm_num [someSample]

theorem someSample_plain (los : Bool) : (someSample los).Plain :=
  ⟨fun m v => by simp [someSample, vertical], fun m v => by simp [someSample, vertical],
    fun _ _ => by simp [someSample]⟩

/-- The hypotheses of `C118_propagate_partial`, `C118_state` and `C118_rays_partial`. -/
example : (someSample false).Valid ∧ (someSample false).los = false ∧
    (⟨1, 3, fun _ n => (n : ℂ)⟩ : Sig ℂ).streams = (someSample false).tx.numTx ∧
    2 < (someSample false).delays.length := ⟨someSample_valid _, rfl, rfl, by norm_num [someSample]⟩

/-- Power which is delivered and power which is claimed, in `C118_energy_fails`. -/
example : ∃ ts, (someSample false).taps = .ok ts ∧ total ts ≠ (someSample false).energyScale := by
  obtain ⟨ts, h1, -, h2⟩ := C118_energy_fails (someSample false) (someSample_valid _) (someSample_plain _) rfl rfl
    (fun c => by simp only [someSample]; split_ifs <;> norm_num) (by norm_num [someSample])
  exact ⟨ts, h1, h2 (by norm_num [someSample])⟩

/-- The hypotheses of `C118_energy_sight_fails`. -/
example : ({ someSample true with powers := fun _ => 0 } : Sample).Valid :=
  let h := someSample_valid true
  ⟨h.clusters, h.delays, h.spread, h.offset, h.bw, h.rays⟩

/-- The hypothesis of `C118_doppler_fails`, with devices departing from each other. -/
example : (someSample true).rx.pos - (someSample true).tx.pos ≠ 0 := by
  intro h
  have := congrFun h 0
  norm_num [someSample, vertical] at this

/-- The condition of `C118_taps_fails`: two taps are fewer than the delays need. -/
example : ((2 : ℕ) : ℤ) ≤ ⌈(someSample false).maxDelay * (someSample false).bw⌉ := by
  have h : (2 : ℝ) ≤ (someSample false).maxDelay * (someSample false).bw := by
    have h1 : (3 / 1000000 : ℝ) ≤ maxOf (someSample false).delays :=
      Verif.RadarChannel.le_maxOf (by simp [someSample])
    have h2 : (3 / 1000000 : ℝ) ≤ (someSample false).maxDelay := by
      unfold Sample.maxDelay
      have h3 := le_max_right (maxOf (((someSample false).delays.take 3).map
        fun d => d + (someSample false).spread * 2.56)) (maxOf (someSample false).delays)
      have h4 : (0 : ℝ) ≤ (someSample false).offset := (someSample_valid false).offset
      linarith
    have h5 : (someSample false).bw = 10000000 := rfl
    rw [h5]
    linarith
  have := h.trans (Int.le_ceil _)
  exact_mod_cast this

/-- Reversed rays of a sample whose polarization transformations are not symmetric, `C118_reciprocal_fails`. -/
example : (someSample false).jones 0 1 0 0 ≠ (someSample false).jones 1 0 0 0 := by
  norm_num [someSample]

/-- An array a hundred metres from the origin, `C118_direction_fails`. -/
example : 1 < norm3 ![100, 0, 0] := by
  have h : norm3 ![100, 0, 0] = Real.sqrt (100 ^ 2) := by simp [norm3]
  rw [h, Real.sqrt_sq (by norm_num)]
  norm_num

end Verif.Cdl
