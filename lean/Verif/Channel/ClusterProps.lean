import Verif.Channel.Cluster

/-!
# C118: what samples of cluster delay line channels do to signals
-/

namespace Verif.Cdl

open Verif Verif.Core Finset
open Verif.Channel.State (Sig Csi)
open Verif.RadarChannel (Dev Mode Mat einsum light maxOf le_maxOf maxOf_mem)

/-- Samples as channel models create them: there is a cluster, no delay is negative, and there are twenty
rays. -/
structure Sample.Valid (s : Sample) : Prop where
  clusters : s.delays ≠ []
  delays : ∀ d ∈ s.delays, 0 ≤ d
  spread : 0 ≤ s.spread
  offset : 0 ≤ s.offset
  bw : 0 < s.bw
  rays : 20 ≤ s.rays

/-- All contributions of a sample. -/
noncomputable def Sample.all (s : Sample) : List Tap :=
  s.schedule.map s.ray ++ if s.los then [s.sight] else []

theorem taps_eq {s : Sample} (h : s.Valid) : s.taps = .ok s.all := by
  unfold Sample.taps
  rw [plan_eq s h.clusters h.rays]
  rfl

theorem used_factor (rays c : Nat) (e : Nat × ℝ) (he : e ∈ used rays c) :
    0 ≤ e.2 ∧ e.2 ≤ 2.56 ∧ (2 ≤ c → e.2 = 0) := by
  unfold used at he
  split_ifs at he with h0 h1
  · simp only [List.mem_flatMap, List.mem_map, List.mem_cons, List.not_mem_nil, or_false] at he
    obtain ⟨a, ha, m, _, rfl⟩ := he
    rcases ha with rfl | rfl | rfl <;> norm_num <;> omega
  · simp only [List.mem_flatMap, List.mem_map, List.mem_cons, List.not_mem_nil, or_false] at he
    obtain ⟨a, ha, m, _, rfl⟩ := he
    rcases ha with rfl | rfl | rfl <;> norm_num <;> omega
  · simp only [List.mem_map] at he
    obtain ⟨m, _, rfl⟩ := he
    norm_num

theorem getD_mem {l : List ℝ} {c : Nat} (h : c < l.length) : l.getD c 0 ∈ l := by
  rw [List.getD_eq_getElem?_getD, List.getElem?_eq_getElem h]
  exact List.getElem_mem h

theorem take_mem {l : List ℝ} {c : Nat} (h : c < l.length) (h3 : c < 3) : l.getD c 0 ∈ l.take 3 := by
  rw [List.getD_eq_getElem?_getD, List.getElem?_eq_getElem h]
  simp only [Option.getD_some]
  rw [List.mem_take_iff_getElem]
  exact ⟨c, by omega, rfl⟩

theorem schedule_delay {s : Sample} (hv : s.Valid) (e : Nat × Nat × ℝ) (he : e ∈ s.schedule) :
    0 ≤ e.2.2 ∧ e.2.2 + s.offset ≤ s.maxDelay := by
  unfold Sample.schedule at he
  simp only [List.mem_flatMap, List.mem_range, List.mem_map] at he
  obtain ⟨c, hc, f, hf, rfl⟩ := he
  obtain ⟨h0, h1, h2⟩ := used_factor _ _ _ hf
  have hd := hv.delays _ (getD_mem hc)
  have hs := hv.spread
  dsimp only
  refine ⟨by positivity, ?_⟩
  unfold Sample.maxDelay
  refine add_le_add_left ?_ _
  by_cases h : 2 ≤ c
  · rw [h2 h, mul_zero, add_zero]
    exact (le_maxOf (getD_mem hc)).trans (le_max_right _ _)
  · refine le_trans ?_ (le_max_left _ _)
    refine le_trans (add_le_add_right (mul_le_mul_of_nonneg_left h1 hs) _) ?_
    exact le_maxOf (List.mem_map_of_mem (f := fun d => d + s.spread * 2.56) (take_mem hc (by omega)))

theorem tap_delay {s : Sample} (hv : s.Valid) (t : Tap) (ht : t ∈ s.all) :
    0 ≤ t.delay ∧ t.delay + s.offset ≤ s.maxDelay := by
  unfold Sample.all at ht
  rcases List.mem_append.mp ht with ht | ht
  · obtain ⟨e, he, rfl⟩ := List.mem_map.mp ht
    exact schedule_delay hv e he
  · split_ifs at ht
    · rw [List.mem_singleton] at ht
      subst ht
      have hp : 0 < s.delays.length := List.length_pos_iff.mpr hv.clusters
      refine ⟨hv.delays _ (getD_mem hp), ?_⟩
      unfold Sample.maxDelay
      exact add_le_add_left ((le_maxOf (getD_mem hp)).trans (le_max_right _ _)) _
    · simp at ht

/-- Delay in whole samples. -/
noncomputable def Sample.shift (s : Sample) (delay : ℝ) : Nat := ⌊(delay + s.offset) * s.bw⌋₊

theorem index_eq {s : Sample} (hv : s.Valid) (t : Tap) (ht : t ∈ s.all) : s.index t = s.shift t.delay := by
  have h := (tap_delay hv t ht).1
  have h0 : 0 ≤ (t.delay + s.offset) * s.bw := mul_nonneg (add_nonneg h hv.offset) hv.bw.le
  unfold Sample.index Sample.shift trunc
  rw [if_pos h0, ← Int.natCast_floor_eq_floor h0]

theorem index_le {s : Sample} (hv : s.Valid) (t : Tap) (ht : t ∈ s.all) :
    (s.shift t.delay : ℤ) ≤ ⌈s.maxDelay * s.bw⌉ := by
  obtain ⟨h0, h1⟩ := tap_delay hv t ht
  have h2 : 0 ≤ (t.delay + s.offset) * s.bw := mul_nonneg (add_nonneg h0 hv.offset) hv.bw.le
  have h3 : ((s.shift t.delay : ℕ) : ℝ) ≤ (t.delay + s.offset) * s.bw := Nat.floor_le h2
  have h4 := mul_le_mul_of_nonneg_right h1 hv.bw.le
  have h5 := Int.le_ceil (s.maxDelay * s.bw)
  have h6 : ((s.shift t.delay : ℤ) : ℝ) ≤ (⌈s.maxDelay * s.bw⌉ : ℝ) := by
    push_cast
    linarith
  exact_mod_cast h6

theorem max_nonneg {s : Sample} (hv : s.Valid) : 0 ≤ ⌈s.maxDelay * s.bw⌉ := by
  have hp : 0 < s.delays.length := List.length_pos_iff.mpr hv.clusters
  have h1 := hv.delays _ (getD_mem hp)
  have h2 : s.delays.getD 0 0 ≤ maxOf s.delays := le_maxOf (getD_mem hp)
  have h3 : 0 ≤ s.maxDelay := by
    unfold Sample.maxDelay
    have := le_max_right (maxOf ((s.delays.take 3).map fun d => d + s.spread * 2.56)) (maxOf s.delays)
    have := hv.offset
    linarith
  exact Int.ceil_nonneg (mul_nonneg h3 hv.bw.le)

theorem tap_dims {s : Sample} (t : Tap) (ht : t ∈ s.all) : t.h.cols = s.tx.numTx := by
  unfold Sample.all at ht
  rcases List.mem_append.mp ht with ht | ht
  · obtain ⟨e, _, rfl⟩ := List.mem_map.mp ht
    rfl
  · split_ifs at ht
    · rw [List.mem_singleton] at ht
      subst ht
      rfl
    · simp at ht

/-- What a contribution adds to sample `k` of receive antenna `r`. -/
noncomputable def Sample.echo (s : Sample) (x : Sig ℂ) (t : Tap) (r k : Nat) : ℂ :=
  if s.shift t.delay ≤ k ∧ k < s.shift t.delay + x.len then
    (∑ a ∈ range x.streams, t.h.val r a * x.val a (k - s.shift t.delay)) * t.w (k - s.shift t.delay)
  else 0

theorem loop_ok {s : Sample} (x : Sig ℂ) (hx : x.streams = s.tx.numTx) (width : Nat) :
    ∀ (ts : List Tap), (∀ t ∈ ts, t.h.cols = s.tx.numTx) → (∀ t ∈ ts, s.index t = s.shift t.delay) →
      (∀ t ∈ ts, s.shift t.delay + x.len ≤ width) → ∀ y : Nat → Nat → ℂ,
      ∃ z, s.loop true x width ts y = .ok z ∧ ∀ r k, z r k = y r k + (ts.map fun t => s.echo x t r k).sum
  | [], _, _, _, y => ⟨y, rfl, fun r m => by simp⟩
  | t :: ts, hc, hi, hw, y => by
    have hcp := hc t (by simp)
    have hip := hi t (by simp)
    have hwp := hw t (by simp)
    obtain ⟨z, hz, hv⟩ := loop_ok x hx width ts (fun q hq => hc q (List.mem_cons_of_mem _ hq))
      (fun q hq => hi q (List.mem_cons_of_mem _ hq)) (fun q hq => hw q (List.mem_cons_of_mem _ hq))
      fun r k => y r k + s.echo x t r k
    refine ⟨z, ?_, fun r k => ?_⟩
    · unfold Sample.loop
      rw [if_pos rfl]
      have h1 : einsum t.h x t.w = .ok fun r k => ∑ a ∈ range x.streams, t.h.val r a * x.val a k * t.w k := by
        unfold einsum
        rw [if_pos (hcp.trans hx.symm)]
      have hcl1 : clip width (s.index t) = s.shift t.delay := by
        rw [hip]
        unfold clip
        rw [if_neg (by omega)]
        omega
      have hcl2 : clip width (s.index t + x.len) = s.shift t.delay + x.len := by
        rw [hip]
        unfold clip
        rw [if_neg (by omega)]
        omega
      have h2 : ∀ e, addSlice width (s.index t) x.len e y = .ok fun r k =>
          if s.shift t.delay ≤ k ∧ k < s.shift t.delay + x.len then y r k + e r (k - s.shift t.delay)
          else y r k := by
        intro e
        unfold addSlice
        rw [hcl1, hcl2, if_pos (by left; omega)]
      rw [h1]
      dsimp only
      rw [h2]
      dsimp only
      rw [← hz]
      congr 1
      funext r k
      unfold Sample.echo
      split_ifs with h
      · rw [Finset.sum_mul]
      · rw [add_zero]
    · rw [hv, List.map_cons, List.sum_cons]
      ring

theorem propagate_ok {s : Sample} (hv : s.Valid) (x : Sig ℂ) (hx : x.streams = s.tx.numTx) :
    ∃ y : Sig ℂ, s.propagate true x = .ok y ∧ y.streams = s.rx.numRx ∧
      (y.len : ℤ) = x.len + ⌈s.maxDelay * s.bw⌉ ∧
      ∀ r k, y.val r k = (s.all.map fun t => s.echo x t r k).sum := by
  have h0 := max_nonneg hv
  obtain ⟨z, hz, hval⟩ := loop_ok (s := s) x hx ((x.len : ℤ) + ⌈s.maxDelay * s.bw⌉).toNat s.all
    (fun t ht => tap_dims t ht) (fun t ht => index_eq hv t ht)
    (fun t ht => by have := index_le hv t ht; omega) fun _ _ => 0
  refine ⟨⟨s.rx.numRx, ((x.len : ℤ) + ⌈s.maxDelay * s.bw⌉).toNat, z⟩, ?_, rfl, ?_, fun r k => ?_⟩
  · unfold Sample.propagate
    dsimp only
    rw [if_neg (by omega), if_pos (.inl hx), taps_eq hv]
    dsimp only
    rw [hz]
  · dsimp only
    omega
  · dsimp only
    rw [hval, zero_add]

theorem fading_eq (s : Sample) (u : Vec3) (n : Nat) :
    s.fading u n = Complex.exp (2 * Real.pi * Complex.I *
      ((s.fc / light * dot3 u (s.rx.vel - s.tx.vel) * (n / s.bw) : ℝ) : ℂ)) := by
  unfold Sample.fading Sample.relative
  congr 1
  push_cast
  ring

theorem rician_pos (s : Sample) : 0 < s.rician := Real.rpow_pos_of_pos (by norm_num) _

theorem scatter_eq (s : Sample) :
    s.scatter = if s.los then 1 / Real.sqrt (1 + (10 : ℝ) ^ (s.rice / 10)) else 1 := by
  have h := rician_pos s
  unfold Sample.scatter
  split_ifs
  · rw [show (-0.5 : ℝ) = -(1 / 2) by norm_num, Real.rpow_neg (by positivity), ← Real.sqrt_eq_rpow]
    simp [Sample.rician]
  · rfl

theorem sandwich_eq (b j a : Nat → Nat → ℂ) (r t : Nat) :
    sandwich b j a r t = b r 0 * j 0 0 * a t 0 + b r 0 * j 0 1 * a t 1 + b r 1 * j 1 0 * a t 0 +
      b r 1 * j 1 1 * a t 1 := by
  simp only [sandwich, Finset.sum_range_succ, Finset.sum_range_zero, zero_add]
  ring

theorem sum_flatMap {α β : Type} (l : List α) (f : α → List β) (g : β → ℂ) :
    ((l.flatMap f).map g).sum = (l.map fun a => ((f a).map g).sum).sum := by
  induction l with
  | nil => rfl
  | cons a l ih => simp [ih]

theorem sum_range_list (n : Nat) (f : Nat → ℂ) : ((List.range n).map f).sum = ∑ c ∈ range n, f c := by
  induction n with
  | zero => simp
  | succ n ih => rw [List.range_succ, List.map_append, List.sum_append, ih, Finset.sum_range_succ]; simp

/-- C118: propagation over a sample without line of sight superimposes its rays.  Each delays the signal by
the whole number of samples its delay lasts, counted from the time of flight, weights it by the square root
of its share in the power of its cluster, by the responses of both arrays and by its polarization
transformation, and shifts it in frequency by the velocity towards its direction of arrival.  No part of
the signal is cut off, and the longest delay is appended.  Which rays are superimposed at which delays is
told by `used` (see `C118_rays_partial` and `C118_rays_fails`). -/
theorem C118_propagate_partial (s : Sample) (hv : s.Valid) (hl : s.los = false) (x : Sig ℂ)
    (hx : x.streams = s.tx.numTx) :
    ∃ y : Sig ℂ, s.propagate true x = .ok y ∧ y.streams = s.rx.numRx ∧
      (y.len : ℤ) = x.len + ⌈s.maxDelay * s.bw⌉ ∧
      ∀ r k, y.val r k = ∑ c ∈ range s.delays.length, ((used s.rays c).map fun e : Nat × ℝ =>
        let d := ⌊(s.delays.getD c 0 + s.spread * e.2 + s.offset) * s.bw⌋₊
        let u := fromSpherical (s.aod c e.1) (s.zod c e.1)
        let v := fromSpherical (s.aoa c e.1) (s.zoa c e.1)
        let b := s.rx.resp .rx s.fc v
        let a := s.tx.resp .tx s.fc u
        if d ≤ k ∧ k < d + x.len then
          (∑ t ∈ range s.tx.numTx, Real.sqrt (s.powers c / s.rays) *
              (b r 0 * s.jones 0 0 c e.1 * a t 0 + b r 0 * s.jones 0 1 c e.1 * a t 1 +
                b r 1 * s.jones 1 0 c e.1 * a t 0 + b r 1 * s.jones 1 1 c e.1 * a t 1) * x.val t (k - d)) *
            Complex.exp (2 * Real.pi * Complex.I *
              ((s.fc / light * dot3 v (s.rx.vel - s.tx.vel) * ((k - d : ℕ) / s.bw) : ℝ) : ℂ))
        else 0).sum := by
  obtain ⟨y, h1, h2, h3, h4⟩ := propagate_ok hv x hx
  refine ⟨y, h1, h2, h3, fun r k => ?_⟩
  rw [h4, ← sum_range_list]
  unfold Sample.all
  simp only [hl, Bool.false_eq_true, if_false, List.append_nil]
  unfold Sample.schedule
  rw [List.map_flatMap, sum_flatMap]
  congr 1
  refine List.map_congr_left fun c _ => ?_
  rw [List.map_map, List.map_map]
  congr 1
  refine List.map_congr_left fun e _ => ?_
  rw [Function.comp_apply, Function.comp_apply]
  have hd : s.shift (s.ray (c, e.1, s.delays.getD c 0 + s.spread * e.2)).delay =
      ⌊(s.delays.getD c 0 + s.spread * e.2 + s.offset) * s.bw⌋₊ := rfl
  by_cases h : ⌊(s.delays.getD c 0 + s.spread * e.2 + s.offset) * s.bw⌋₊ ≤ k ∧
      k < ⌊(s.delays.getD c 0 + s.spread * e.2 + s.offset) * s.bw⌋₊ + x.len
  · unfold Sample.echo
    rw [if_pos h, if_pos (by rw [hd]; exact h), hd, hx]
    unfold Sample.ray
    dsimp only
    rw [fading_eq]
    congr 1
    refine Finset.sum_congr rfl fun t _ => ?_
    rw [sandwich_eq, scatter_eq, hl]
    simp only [Bool.false_eq_true, if_false, mul_one]
    ring
  · unfold Sample.echo
    rw [if_neg h, if_neg (by rw [hd]; exact h)]

/-! ### Channel state information -/

/-- What a contribution adds to a tap of the state. -/
noncomputable def Sample.entry (s : Sample) (maxTaps : Nat) (t : Tap) (r a n k : Nat) : ℂ :=
  if s.shift t.delay = k ∧ k < maxTaps then t.h.val r a * t.w n else 0

theorem stateLoop_ok {s : Sample} (depth : ℤ) (maxTaps : Nat) :
    ∀ (ts : List Tap), (∀ t ∈ ts, s.index t = s.shift t.delay) →
      (∀ t ∈ ts, (s.shift t.delay : ℤ) < maxTaps → (s.shift t.delay : ℤ) < depth) →
      ∀ st : Nat → Nat → Nat → Nat → ℂ, ∃ z, s.stateLoop depth maxTaps ts st = .ok z ∧
        ∀ r a n k, z r a n k = st r a n k + (ts.map fun t => s.entry maxTaps t r a n k).sum
  | [], _, _, st => ⟨st, rfl, fun r a n k => by simp⟩
  | t :: ts, hi, hw, st => by
    have hip := hi t (by simp)
    have hwp := hw t (by simp)
    obtain ⟨z, hz, hv⟩ := stateLoop_ok depth maxTaps ts (fun q hq => hi q (List.mem_cons_of_mem _ hq))
      (fun q hq => hw q (List.mem_cons_of_mem _ hq)) fun r a n k => st r a n k + s.entry maxTaps t r a n k
    refine ⟨z, ?_, fun r a n k => ?_⟩
    · have h1 : s.addTap depth maxTaps t st =
          .ok fun r a n k => st r a n k + s.entry maxTaps t r a n k := by
        unfold Sample.addTap
        rw [hip]
        by_cases hm : (maxTaps : ℤ) ≤ s.shift t.delay
        · rw [if_pos hm]
          congr 1
          funext r a n k
          unfold Sample.entry
          rw [if_neg (by omega), add_zero]
        · have hd := hwp (by omega)
          rw [if_neg hm, if_neg (by omega)]
          congr 1
          funext r a n k
          unfold Sample.entry
          have hp : (if ((s.shift t.delay : ℕ) : ℤ) < 0 then (s.shift t.delay : ℤ) + depth else s.shift t.delay) =
              s.shift t.delay := if_neg (by omega)
          rw [hp]
          by_cases hk : s.shift t.delay = k
          · rw [if_pos (by omega), if_pos (by omega)]
          · rw [if_neg (by omega), if_neg (by omega), add_zero]
      unfold Sample.stateLoop
      rw [h1]
      exact hz
    · rw [hv, List.map_cons, List.sum_cons]
      ring

theorem state_ok {s : Sample} (hv : s.Valid) (smp maxTaps : Nat) :
    ∃ c : Csi ℂ, s.state smp maxTaps = .ok c ∧ c.fmt = .impulse ∧ c.rx = s.rx.numRx ∧ c.tx = s.tx.numTx ∧
      c.smp = smp ∧ (c.inf : ℤ) = 1 + min (maxTaps : ℤ) ⌈s.maxDelay * s.bw⌉ ∧
      ∀ r a n k, c.st r a n k = (s.all.map fun t => s.entry maxTaps t r a n k).sum := by
  have h0 := max_nonneg hv
  obtain ⟨z, hz, hval⟩ := stateLoop_ok (s := s) (1 + min (maxTaps : ℤ) ⌈s.maxDelay * s.bw⌉) maxTaps s.all
    (fun t ht => index_eq hv t ht) (fun t ht _ => by have := index_le hv t ht; omega) fun _ _ _ _ => 0
  refine ⟨⟨.impulse, s.rx.numRx, s.tx.numTx, smp, (1 + min (maxTaps : ℤ) ⌈s.maxDelay * s.bw⌉).toNat, z,
    (1 + min (maxTaps : ℤ) ⌈s.maxDelay * s.bw⌉).toNat, (1 + min (maxTaps : ℤ) ⌈s.maxDelay * s.bw⌉).toNat⟩,
    ?_, rfl, rfl, rfl, rfl, ?_, fun r a n k => ?_⟩
  · unfold Sample.state
    dsimp only
    rw [if_neg (by omega), taps_eq hv]
    dsimp only
    rw [hz]
    simp [Verif.Channel.State.create]
  · dsimp only
    omega
  · dsimp only
    rw [hval, zero_add]

theorem list_sum_comm {α : Type} (l : List α) (n : Nat) (f : α → Nat → ℂ) :
    (l.map fun t => ∑ k ∈ range n, f t k).sum = ∑ k ∈ range n, (l.map fun t => f t k).sum := by
  induction l with
  | nil => simp
  | cons a l ih => simp [ih, Finset.sum_add_distrib]

theorem list_sum_mul {α : Type} (l : List α) (f : α → ℂ) (x : ℂ) :
    (l.map f).sum * x = (l.map fun t => f t * x).sum := by
  induction l with
  | nil => simp
  | cons a l ih => simp [add_mul, ih]

/-- C118: the channel state a sample reports describes what it does to signals, if it may have more taps than
the longest delay has samples: propagating any signal over the reported state yields what propagating it over
the sample yields. -/
theorem C118_state (s : Sample) (hv : s.Valid) (x : Sig ℂ) (hx : x.streams = s.tx.numTx) (smp maxTaps : Nat)
    (hs : x.len ≤ smp) (hm : ⌈s.maxDelay * s.bw⌉ < maxTaps) :
    ∃ (c : Csi ℂ) (y z : Sig ℂ), s.state smp maxTaps = .ok c ∧ s.propagate true x = .ok y ∧
      Verif.Channel.State.propagate c x = .ok z ∧ z.streams = y.streams ∧ z.len = y.len ∧
      ∀ r < z.streams, ∀ k, z.val r k = y.val r k := by
  have h0 := max_nonneg hv
  obtain ⟨c, hc, hf, hrx, htx, hsmp, hinf, hst⟩ := state_ok hv smp maxTaps
  obtain ⟨y, hy, hys, hyl, hyv⟩ := propagate_ok hv x hx
  obtain ⟨z, hz, hzs, hzl, hzv⟩ := Verif.Channel.State.C69_propagate c x (by omega) (.inl (by omega)) (by omega)
  refine ⟨c, y, z, hc, hy, hz, by omega, by omega, fun r hr k => ?_⟩
  rw [hzv r (by omega), hyv, htx]
  have h1 : ∀ a ∈ range s.tx.numTx, (∑ d ∈ range c.inf, if d ≤ k ∧ k < d + x.len then
      c.st r a (if c.smp = 1 then 0 else k - d) d * x.val a (k - d) else 0) =
      (s.all.map fun t => if s.shift t.delay ≤ k ∧ k < s.shift t.delay + x.len then
        t.h.val r a * t.w (k - s.shift t.delay) * x.val a (k - s.shift t.delay) else 0).sum := by
    intro a _
    have h2 : ∀ d ∈ range c.inf, (if d ≤ k ∧ k < d + x.len then
        c.st r a (if c.smp = 1 then 0 else k - d) d * x.val a (k - d) else 0) =
        (s.all.map fun t => if s.shift t.delay = d then (if d ≤ k ∧ k < d + x.len then
          t.h.val r a * t.w (k - d) * x.val a (k - d) else 0) else 0).sum := by
      intro d hd
      have hd' := Finset.mem_range.mp hd
      by_cases h : d ≤ k ∧ k < d + x.len
      · rw [if_pos h, hst, list_sum_mul]
        congr 1
        refine List.map_congr_left fun t _ => ?_
        have hn : (if c.smp = 1 then 0 else k - d) = k - d := by
          split_ifs
          · omega
          · rfl
        unfold Sample.entry
        rw [hn]
        by_cases hk : s.shift t.delay = d
        · rw [if_pos ⟨hk, by omega⟩, if_pos hk, if_pos h]
        · rw [if_neg (fun h' => hk h'.1), if_neg hk, zero_mul]
      · rw [if_neg h]
        symm
        apply List.sum_eq_zero
        intro v hv'
        obtain ⟨t, _, rfl⟩ := List.mem_map.mp hv'
        rw [if_neg h, ite_self]
    rw [Finset.sum_congr rfl h2, ← list_sum_comm]
    congr 1
    refine List.map_congr_left fun t ht => ?_
    have := index_le hv t ht
    rw [Finset.sum_ite_eq, if_pos (Finset.mem_range.mpr (by omega))]
  rw [Finset.sum_congr rfl h1, ← list_sum_comm]
  congr 1
  refine List.map_congr_left fun t _ => ?_
  unfold Sample.echo
  by_cases h : s.shift t.delay ≤ k ∧ k < s.shift t.delay + x.len
  · rw [if_pos h, hx, Finset.sum_mul]
    refine Finset.sum_congr rfl fun a _ => ?_
    rw [if_pos h]
    ring
  · rw [if_neg h]
    exact Finset.sum_eq_zero fun a _ => if_neg h

/-- C118: if the number of taps is limited, the state holds all contributions delayed by less than it. -/
theorem C118_taps (s : Sample) (hv : s.Valid) (smp few many : Nat) (hm : few ≤ many) :
    ∃ c d : Csi ℂ, s.state smp few = .ok c ∧ s.state smp many = .ok d ∧
      ∀ r a n, ∀ k < few, c.st r a n k = d.st r a n k := by
  obtain ⟨c, hc, -, -, -, -, -, hst⟩ := state_ok hv smp few
  obtain ⟨d, hd, -, -, -, -, -, hst'⟩ := state_ok hv smp many
  refine ⟨c, d, hc, hd, fun r a n k hk => ?_⟩
  rw [hst, hst']
  congr 1
  refine List.map_congr_left fun t _ => ?_
  unfold Sample.entry
  by_cases h : s.shift t.delay = k
  · rw [if_pos ⟨h, hk⟩, if_pos ⟨h, by omega⟩]
  · rw [if_neg fun h' => h h'.1, if_neg fun h' => h h'.1]

/-- C118 fails: a state asked for no more than a number of taps has one more if delays are longer, which never
holds anything. -/
theorem C118_taps_fails (s : Sample) (hv : s.Valid) (smp maxTaps : Nat)
    (hm : (maxTaps : ℤ) ≤ ⌈s.maxDelay * s.bw⌉) :
    ∃ c : Csi ℂ, s.state smp maxTaps = .ok c ∧ c.inf = maxTaps + 1 ∧ ∀ r a n, c.st r a n maxTaps = 0 := by
  obtain ⟨c, hc, -, -, -, -, hinf, hst⟩ := state_ok hv smp maxTaps
  refine ⟨c, hc, by omega, fun r a n => ?_⟩
  rw [hst]
  apply List.sum_eq_zero
  intro v hv'
  obtain ⟨t, _, rfl⟩ := List.mem_map.mp hv'
  unfold Sample.entry
  rw [if_neg (by omega)]

/-- C118 fails: with any other interpolation than the nearest sample, nothing arrives. -/
theorem C118_interpolation_fails (s : Sample) (hv : s.Valid) (x : Sig ℂ) (hx : x.streams = s.tx.numTx) :
    ∃ y : Sig ℂ, s.propagate false x = .ok y ∧ ∀ r k, y.val r k = 0 := by
  have h0 := max_nonneg hv
  have hl : ∀ (ts : List Tap) (w : Nat) (y : Nat → Nat → ℂ), s.loop false x w ts y = .ok y := by
    intro ts w y
    induction ts with
    | nil => rfl
    | cons t ts ih =>
      unfold Sample.loop
      simp [ih]
  refine ⟨⟨s.rx.numRx, ((x.len : ℤ) + ⌈s.maxDelay * s.bw⌉).toNat, fun _ _ => 0⟩, ?_, fun _ _ => rfl⟩
  unfold Sample.propagate
  dsimp only
  rw [if_neg (by omega), if_pos (.inl hx), taps_eq hv]
  dsimp only
  rw [hl]

end Verif.Cdl
