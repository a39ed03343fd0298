import Verif.Channel.ClusterDrawProps
import Verif.Core.Antennas

/-!
# C119: samples drawn by cluster delay line channels
-/

namespace Verif.CdlDraw

open Verif Verif.Core Finset
open Matrix (transpose)
open scoped Matrix
open Verif.Cdl (Sample)
open Verif.RadarChannel (Dev light maxOf)

/-! ### What a sample consists of -/

/-- The steps of a successful `_sample`. -/
theorem sample_parts {r : Realization} {tx rx : End} {fc bw : ℝ} {s : Sample} (h : r.sample tx rx fc bw = .ok s) :
    let lk := link fc tx.dev.pos rx.dev.pos
    let st := r.state lk tx.dev.pos rx.dev.pos
    let d := r.small st tx.dev.pos rx.dev.pos
    let g := largeScale (r.scenario.mean st lk) (r.scenario.std st lk) (r.lsp st)
    lk.d3 ≠ 0 ∧ ∃ (a b : ℝ × ℝ) (raw scaled : List ℝ) (least : ℝ) (p : List ℝ),
      direct tx.pose tx.dev.pos rx.dev.pos = .ok a ∧ direct rx.pose rx.dev.pos tx.dev.pos = .ok b ∧
      clusterDelays (r.scenario.scaling st) g.ds g.k st.los (r.scenario.num st) d.delay = .ok (raw, scaled, least) ∧
      clusterPowers (r.scenario.scaling st) g.ds g.k (r.scenario.shadowStd st) st.los (r.scenario.num st) raw d.shadow =
        .ok p ∧ s = r.build tx.dev rx.dev bw lk st d g a b scaled least p := by
  intro lk st d g
  simp only [Realization.sample] at h
  split at h
  · exact absurd h (by simp)
  · rename_i hd
    refine ⟨hd, ?_⟩
    split at h
    · exact absurd h (by simp)
    · rename_i a ha
      split at h
      · exact absurd h (by simp)
      · rename_i b hb
        split at h
        · exact absurd h (by simp)
        · rename_i raw scaled least hc
          split at h
          · exact absurd h (by simp)
          · rename_i p hp
            exact ⟨a, b, raw, scaled, least, p, ha, hb, hc, hp, (Except.ok.inj h).symm⟩

/-- Samples are those of the link they were asked for. -/
theorem sample_link {r : Realization} {tx rx : End} {fc bw : ℝ} {s : Sample} (h : r.sample tx rx fc bw = .ok s) :
    s.bw = bw ∧ s.fc = fc ∧ s.tx = tx.dev ∧ s.rx = rx.dev := by
  obtain ⟨_, _, _, _, _, _, _, _, _, _, _, rfl⟩ := sample_parts h
  exact ⟨rfl, rfl, rfl, rfl⟩

/-- The same steps make a sample. -/
theorem sample_of_parts {r : Realization} {tx rx : End} {fc bw : ℝ} {a b : ℝ × ℝ} {raw scaled : List ℝ} {least : ℝ}
    {p : List ℝ}
    (hd : (link fc tx.dev.pos rx.dev.pos).d3 ≠ 0)
    (ha : direct tx.pose tx.dev.pos rx.dev.pos = .ok a) (hb : direct rx.pose rx.dev.pos tx.dev.pos = .ok b)
    (hc : let lk := link fc tx.dev.pos rx.dev.pos
      let st := r.state lk tx.dev.pos rx.dev.pos
      let d := r.small st tx.dev.pos rx.dev.pos
      let g := largeScale (r.scenario.mean st lk) (r.scenario.std st lk) (r.lsp st)
      clusterDelays (r.scenario.scaling st) g.ds g.k st.los (r.scenario.num st) d.delay = .ok (raw, scaled, least) ∧
      clusterPowers (r.scenario.scaling st) g.ds g.k (r.scenario.shadowStd st) st.los (r.scenario.num st) raw d.shadow =
        .ok p) :
    let lk := link fc tx.dev.pos rx.dev.pos
    let st := r.state lk tx.dev.pos rx.dev.pos
    r.sample tx rx fc bw = .ok (r.build tx.dev rx.dev bw lk st (r.small st tx.dev.pos rx.dev.pos)
      (largeScale (r.scenario.mean st lk) (r.scenario.std st lk) (r.lsp st)) a b scaled least p) := by
  intro lk st
  obtain ⟨h1, h2⟩ := hc
  simp only [Realization.sample]
  rw [if_neg hd, ha, hb]
  simp only []
  rw [h1]
  simp only []
  rw [h2]

/-! ### Directions -/

/-- Rigid poses at a position. -/
def Placed (e : End) (R : Mat3) : Prop := IsRotation R ∧ e.pose = assemble R e.dev.pos

theorem norm3_rotate {R : Mat3} (hR : IsRotation R) (v : Vec3) : norm3 (R.mulVec v) = norm3 v := by
  rw [Ant.norm3_eq, Ant.norm3_eq, Ant.dot3_rotate hR]

/-- The angles of the line of sight are those of the direction to the other device in own coordinates. -/
theorem direct_ok {e : End} {R : Mat3} (h : Placed e R) {other : Vec3} (hne : other - e.dev.pos ≠ 0) :
    ∃ a, direct e.pose e.dev.pos other = .ok a ∧
      R.mulVec (fromSpherical (Real.pi / 180 * a.1) (Real.pi / 180 * a.2)) =
        scale (other - e.dev.pos) (norm3 (other - e.dev.pos)) := by
  obtain ⟨hR, hp⟩ := h
  have hRt := Ant.isRotation_transpose hR
  set v := other - e.dev.pos with hv
  have hvn : norm3 v ≠ 0 := by
    intro hz
    apply hne
    rw [Ant.norm3_eq, Real.sqrt_eq_zero (by simp only [dot3]; nlinarith [sq_nonneg (v 0), sq_nonneg (v 1), sq_nonneg (v 2)])] at hz
    simp only [dot3] at hz
    funext i
    fin_cases i <;> (simp; nlinarith [sq_nonneg (v 0), sq_nonneg (v 1), sq_nonneg (v 2)])
  have hne' : Rᵀ.mulVec v ≠ 0 := by
    intro hz
    apply hvn
    rw [← norm3_rotate hRt, hz]
    simp [norm3]
  have h1 : invert e.pose = .ok (assemble Rᵀ (-(Rᵀ.mulVec e.dev.pos))) := by rw [hp]; exact Ant.invert_assemble hR _
  have h2 : rotateDirection (assemble Rᵀ (-(Rᵀ.mulVec e.dev.pos))) v = Rᵀ.mulVec v := by
    rw [rotateDirection, rot_assemble]
  have h3 := Ant.fromCartesian_norm hne'
  set d := scale (Rᵀ.mulVec v) (norm3 (Rᵀ.mulVec v)) with hd
  refine ⟨(180 * (toSpherical d).1 / Real.pi, 180 * (toSpherical d).2 / Real.pi), ?_, ?_⟩
  · simp only [direct, h1, ← hv, h2, h3]
  · have hpi := Real.pi_ne_zero
    have e1 : Real.pi / 180 * (180 * (toSpherical d).1 / Real.pi) = (toSpherical d).1 := by field_simp
    have e2 : Real.pi / 180 * (180 * (toSpherical d).2 / Real.pi) = (toSpherical d).2 := by field_simp
    simp only [e1, e2]
    have hu : IsUnitVec d := by
      obtain ⟨u, hu, hunit, _⟩ := (C29_from_cartesian (Rᵀ.mulVec v)).1 hne'
      rw [h3] at hu
      cases hu
      exact hunit
    rw [(C29_cartesian_roundtrip d hu).1, hd, norm3_rotate hRt]
    have hs : scale (Rᵀ.mulVec v) (norm3 v) = Rᵀ.mulVec (scale v (norm3 v)) := by
      funext i
      simp only [scale, Matrix.mulVec, dotProduct, Fin.sum_univ_three]
      ring
    rw [hs, Matrix.mulVec_mulVec, hR.1, Matrix.one_mulVec]

/-- Ray couplings as drawn by `_realize`, channel/cdl/cluster_delay_lines.py 2253-2263: permutations. -/
def Coupled (r : Realization) : Prop :=
  ∀ a c, Set.BijOn (r.coupling a c) (range 20 : Finset Nat) (range 20 : Finset Nat)

/-- Mean of the angles of the rays of a cluster. -/
noncomputable def mean (x : Nat → Nat → ℝ) (c : Nat) : ℝ := (∑ m ∈ range 20, x c m) / 20

theorem mean_rays (angles : Nat → ℝ) (w : ℝ) (index : Nat → Nat → Nat) (c : Nat)
    (h : Set.BijOn (index c) (range 20 : Finset Nat) (range 20 : Finset Nat)) :
    mean (rays angles w index) c = Real.pi / 180 * angles c := by
  have h0 : ∑ m ∈ range 20, offsets.getD (index c m) 0 = ∑ m ∈ range 20, offsets.getD m 0 :=
    Finset.sum_nbij (index c) (fun m hm => h.mapsTo hm) h.injOn h.surjOn (fun _ _ => rfl)
  have h1 : ∑ m ∈ range 20, offsets.getD m 0 = 0 := by
    simp only [Finset.sum_range_succ, Finset.sum_range_zero, offsets, List.getD_cons_zero, List.getD_cons_succ]
    norm_num
  rw [h1] at h0
  simp only [mean, rays]
  rw [← Finset.mul_sum, Finset.sum_add_distrib, ← Finset.mul_sum, h0]
  simp
  ring

/-- C119: with line of sight, the rays of the first cluster depart from and arrive at the devices around the direction
of the other device: the mean of their angles is its direction in the coordinates of the device. -/
theorem C119_sight_partial (r : Realization) (tx rx : End) (fc bw : ℝ) (s : Sample) (R S : Mat3)
    (h : r.sample tx rx fc bw = .ok s) (hlos : s.los = true) (hR : Placed tx R) (hS : Placed rx S) (hc : Coupled r) :
    R.mulVec (fromSpherical (mean s.aod 0) (mean s.zod 0)) =
      scale (rx.dev.pos - tx.dev.pos) (norm3 (rx.dev.pos - tx.dev.pos)) ∧
    S.mulVec (fromSpherical (mean s.aoa 0) (mean s.zoa 0)) =
      scale (tx.dev.pos - rx.dev.pos) (norm3 (tx.dev.pos - rx.dev.pos)) := by
  obtain ⟨hd, a, b, raw, scaled, least, p, ha, hb, _, _, rfl⟩ := sample_parts h
  have hne : tx.dev.pos - rx.dev.pos ≠ 0 := by
    intro hz
    apply hd
    simp only [link, hz]
    simp [norm3]
  have hne' : rx.dev.pos - tx.dev.pos ≠ 0 := by
    intro hz
    apply hne
    rw [← neg_sub, hz, neg_zero]
  obtain ⟨a', ha', hra⟩ := direct_ok hR hne'
  obtain ⟨b', hb', hsb⟩ := direct_ok hS hne
  rw [ha] at ha'
  rw [hb] at hb'
  cases ha'
  cases hb'
  simp only [Realization.build] at hlos ⊢
  rw [mean_rays _ _ _ _ (hc 0 0), mean_rays _ _ _ _ (hc 1 0), mean_rays _ _ _ _ (hc 2 0), mean_rays _ _ _ _ (hc 3 0)]
  simp only [azimuths, zeniths, centre, hlos, if_true, add_sub_cancel]
  exact ⟨hra, hsb⟩

/-- C119 fails for rotated devices: samples take ray angles for directions in global coordinates, but they are drawn
around the line of sight in the coordinates of the device. If the rotation moves the line of sight, the rays of the
first cluster are not around it. -/
theorem C119_frame_fails (r : Realization) (tx rx : End) (fc bw : ℝ) (s : Sample) (R S : Mat3)
    (h : r.sample tx rx fc bw = .ok s) (hlos : s.los = true) (hR : Placed tx R) (hS : Placed rx S) (hc : Coupled r) :
    let u := scale (rx.dev.pos - tx.dev.pos) (norm3 (rx.dev.pos - tx.dev.pos))
    let v := scale (tx.dev.pos - rx.dev.pos) (norm3 (tx.dev.pos - rx.dev.pos))
    (R.mulVec u ≠ u → fromSpherical (mean s.aod 0) (mean s.zod 0) ≠ u) ∧
    (S.mulVec v ≠ v → fromSpherical (mean s.aoa 0) (mean s.zoa 0) ≠ v) := by
  intro u v
  obtain ⟨h1, h2⟩ := C119_sight_partial r tx rx fc bw s R S h hlos hR hS hc
  refine ⟨fun hne he => hne ?_, fun hne he => hne ?_⟩
  · rw [he] at h1; exact h1
  · rw [he] at h2; exact h2

/-- C119 fails for the independence of arrivals and departures without line of sight: both azimuths are drawn from the
same random numbers, so that all clusters deviate from the line of sight at the receiver by what they do at the
transmitter, up to a common factor. -/
theorem C119_independent_fails (r : Realization) (tx rx : End) (fc bw : ℝ) (s : Sample) (a b : ℝ × ℝ)
    (h : r.sample tx rx fc bw = .ok s) (hlos : s.los = false) (hc : Coupled r)
    (ha : direct tx.pose tx.dev.pos rx.dev.pos = .ok a) (hb : direct rx.pose rx.dev.pos tx.dev.pos = .ok b) :
    ∃ ratio : ℝ, 0 < ratio ∧ ∀ c, mean s.aoa c - Real.pi / 180 * b.1 = ratio * (mean s.aod c - Real.pi / 180 * a.1) := by
  obtain ⟨hd, a', b', raw, scaled, least, p, ha', hb', _, _, rfl⟩ := sample_parts h
  rw [ha] at ha'
  rw [hb] at hb'
  cases ha'
  cases hb'
  simp only [Realization.build] at hlos ⊢
  set lk := link fc tx.dev.pos rx.dev.pos
  set st := r.state lk tx.dev.pos rx.dev.pos
  obtain ⟨_, ⟨h1, _⟩, ⟨h2, _⟩, _⟩ := C119_large_scale (r.scenario.mean st lk) (r.scenario.std st lk) (r.lsp st)
  refine ⟨_, div_pos h2 h1, fun c => ?_⟩
  rw [mean_rays _ _ _ _ (hc 0 c), mean_rays _ _ _ _ (hc 2 c)]
  simp only [azimuths, centre, hlos, Bool.false_eq_true, if_false]
  have := h1.ne'
  field_simp
  ring

/-! ### Losses -/

/-- Whatever the carrier frequency, the table of losses yields the same value. -/
theorem interp_oxygen (fc : ℝ) (hfc : 0 < fc) :
    interp (fc * 1e-9) (oxygenTable.getD 0 []) (oxygenTable.getD 1 []) = 1 := by
  simp only [interp, oxygenTable, List.getD_cons_zero, List.getD_cons_succ]
  rw [if_pos (by simp; linarith)]
  norm_num

/-- C119 fails for the oxygen absorption: powers are not reduced by the loss at the carrier frequency, but by 0.2 dB per
metre at any of them, more than ten times the loss at 60 GHz. -/
theorem C119_oxygen_fails (r : Realization) (tx rx : End) (fc bw : ℝ) (s : Sample) (hfc : 0 < fc)
    (h : r.sample tx rx fc bw = .ok s) (hon : r.oxygen = true) :
    ∃ (s' : Sample) (least : ℝ), { r with oxygen := false }.sample tx rx fc bw = .ok s' ∧ s'.delays = s.delays ∧
      (s.los = true → least = 0) ∧
      ∀ c, s.powers c = s'.powers c *
        (10 : ℝ) ^ (-(0.2 * (norm3 (tx.dev.pos - rx.dev.pos) + light * (s.delays.getD c 0 + least))) / 10) := by
  obtain ⟨hd, a, b, raw, scaled, least, p, ha, hb, hcd, hcp, rfl⟩ := sample_parts h
  have hs' := sample_of_parts (r := { r with oxygen := false }) (bw := bw) hd ha hb ⟨hcd, hcp⟩
  refine ⟨_, least, hs', rfl, ?_, fun c => ?_⟩
  · intro hl
    simp only [Realization.build] at hl
    simp only [clusterDelays] at hcd
    split at hcd
    · exact absurd hcd (by simp)
    · rw [hl] at hcd
      simp at hcd
      exact hcd.2.2.symm
  · simp only [Realization.build, oxygenLoss, hon, if_true, Bool.false_eq_true, if_false, link]
    rw [interp_oxygen fc hfc, mul_one, mul_pow, mul_one, ← mul_assoc]
    congr 1
    rw [← Real.rpow_natCast, ← Real.rpow_mul (by norm_num)]
    congr 1
    push_cast
    ring

/-- C119 fails for the gain: it is a factor of powers according to its documentation, but scales them by its square. -/
theorem C119_gain_fails (r : Realization) (tx rx : End) (fc bw : ℝ) (s : Sample) (h : r.sample tx rx fc bw = .ok s)
    (g : ℝ) (h1 : r.gain = 1) :
    ∃ s', { r with gain := g }.sample tx rx fc bw = .ok s' ∧ s'.delays = s.delays ∧
      s'.energyScale = g ^ 2 * s.energyScale := by
  obtain ⟨hd, a, b, raw, scaled, least, p, ha, hb, hcd, hcp, rfl⟩ := sample_parts h
  have hs' := sample_of_parts (r := { r with gain := g }) (bw := bw) hd ha hb ⟨hcd, hcp⟩
  refine ⟨_, hs', rfl, ?_⟩
  simp only [Cdl.Sample.energyScale, Realization.build, Realization.state, Finset.mul_sum, h1]
  refine Finset.sum_congr rfl fun c _ => ?_
  ring

/-- C119 fails for shadow fading: its random number has no effect on samples. -/
theorem C119_shadow_fails (r : Realization) (f : Nat → ℝ) (tx rx : End) (fc bw : ℝ) :
    { r with lsp := fun i j => if j = 6 then f i else r.lsp i j }.sample tx rx fc bw = r.sample tx rx fc bw := by
  rfl

/-! ### Valid realizations -/

/-- Normalized powers are positive and sum to one. -/
theorem normalized_ok (k : ℝ) (los : Bool) (q : List ℝ) (hne : q ≠ []) (hpos : ∀ x ∈ q, 0 < x) :
    ∃ n, normalized k los q = .ok n ∧ n.length = q.length ∧ n.sum = 1 ∧ ∀ x ∈ n, 0 < x := by
  have hs := sum_pos_of hne hpos
  cases los with
  | false =>
    refine ⟨q.map fun x => x / q.sum, by simp [normalized], by simp, by rw [sum_div, div_self hs.ne'], ?_⟩
    intro x hx
    obtain ⟨y, hy, rfl⟩ := List.mem_map.mp hx
    exact div_pos (hpos y hy) hs
  | true =>
    cases q with
    | nil => exact absurd rfl hne
    | cons a l =>
      obtain ⟨z, p, h1, h2, h3, h4, h5⟩ := C119_sight_share_fails k a l (hpos a List.mem_cons_self) fun x hx =>
        hpos x (List.mem_cons_of_mem _ hx)
      have hK : 0 < (10 : ℝ) ^ (k / 10) := Real.rpow_pos_of_pos (by norm_num) _
      have ha := hpos a List.mem_cons_self
      have hz : 0 < z := by rw [h4]; positivity
      refine ⟨z :: p, h1, by simp [h2], h3, ?_⟩
      intro x hx
      rcases List.mem_cons.mp hx with rfl | hx
      · exact hz
      · obtain ⟨i, hi, rfl⟩ := List.mem_iff_getElem.mp hx
        have hil : i < l.length := by omega
        have h6 := (h5 i hil hi).1
        have hli := hpos l[i] (List.mem_cons_of_mem _ (List.getElem_mem hil))
        have h7 : 0 < z / p[i] := by rw [h6]; positivity
        exact (div_pos_iff_of_pos_left hz).mp h7

/-- Eliminating weak clusters keeps at least one, and no power is gained. -/
theorem cutoff_ok (n : List ℝ) (hne : n ≠ []) (hpos : ∀ x ∈ n, 0 < x) :
    ∃ p, cutoff n = .ok p ∧ p ≠ [] ∧ p.Sublist n ∧ p.sum ≤ n.sum := by
  cases n with
  | nil => exact absurd rfl hne
  | cons a l =>
    refine ⟨_, rfl, ?_, List.filter_sublist, ?_⟩
    · apply List.ne_nil_of_mem (a := a)
      rw [List.mem_filter]
      refine ⟨List.mem_cons_self, decide_eq_true ?_⟩
      nlinarith [hpos a List.mem_cons_self, cutoff_lt]
    · have h1 := sum_filter_add (a :: l) fun x => decide (a * (10 : ℝ) ^ (-25 / 10 : ℝ) ≤ x)
      have h2 : 0 ≤ ((a :: l).filter fun x => !decide (a * (10 : ℝ) ^ (-25 / 10 : ℝ) ≤ x)).sum :=
        List.sum_nonneg fun x hx => (hpos x (List.mem_filter.mp hx).1).le
      linarith

theorem sum_range_getD (p : List ℝ) : ∑ c ∈ range p.length, p.getD c 0 = p.sum := by
  induction p with
  | nil => simp
  | cons a p ih => rw [List.length_cons, Finset.sum_range_succ', List.sum_cons, ← ih, add_comm]; rfl

/-- What scenarios and random numbers of a link satisfy. -/
structure Drawable (r : Realization) (lk : Link) (tx rx : Vec3) : Prop where
  scaling : 0 < r.scenario.scaling (r.state lk tx rx)
  num : 0 < r.scenario.num (r.state lk tx rx)
  delay : (r.small (r.state lk tx rx) tx rx).delay ≠ []
  unit : ∀ u ∈ (r.small (r.state lk tx rx) tx rx).delay, 0 < u ∧ u < 1
  shadow : (r.small (r.state lk tx rx) tx rx).shadow.length = (r.small (r.state lk tx rx) tx rx).delay.length

/-- C119: samples are drawn for all devices at different positions. They have at least one and at most as many clusters
as the scenario, positive powers, sorted delays which start at zero unless the Rice factor is too low, the time of flight
as offset if asked for, and do not transmit more power than the path loss and the squared gain leave. -/
theorem C119_sample_partial (r : Realization) (tx rx : End) (fc bw : ℝ) (R S : Mat3) (hR : Placed tx R)
    (hS : Placed rx S) (hpos : tx.dev.pos ≠ rx.dev.pos) (hfc : 0 < fc)
    (hv : Drawable r (link fc tx.dev.pos rx.dev.pos) tx.dev.pos rx.dev.pos) :
    let lk := link fc tx.dev.pos rx.dev.pos
    let st := r.state lk tx.dev.pos rx.dev.pos
    let k := r.scenario.mean st lk 5 + r.scenario.std st lk 5 * r.lsp st 5
    ∃ s, r.sample tx rx fc bw = .ok s ∧ (s.los = true ↔ st = 0) ∧ s.rice = k ∧
      0 < s.delays.length ∧ s.delays.length ≤ r.scenario.num st ∧
      ((s.los = true → 0 < riceScale k) → s.delays.head? = some 0 ∧ s.delays.Pairwise (· ≤ ·) ∧
        (∀ d ∈ s.delays, 0 ≤ d) ∧ s.energyScale ≤ (10 : ℝ) ^ (-r.scenario.loss st lk / 10) * r.gain ^ 2) ∧
      (r.gain ≠ 0 → ∀ c < s.delays.length, 0 < s.powers c) ∧
      s.offset = (if r.tof then norm3 (tx.dev.pos - rx.dev.pos) / light else 0) := by
  intro lk st k
  have hne : tx.dev.pos - rx.dev.pos ≠ 0 := sub_ne_zero.mpr hpos
  have hne' : rx.dev.pos - tx.dev.pos ≠ 0 := sub_ne_zero.mpr hpos.symm
  have hd : lk.d3 ≠ 0 := by
    intro hz
    simp only [lk, link] at hz
    obtain ⟨u, hu, _⟩ := (C29_from_cartesian (tx.dev.pos - rx.dev.pos)).1 hne
    unfold fromCartesian at hu
    simp only [if_true] at hu
    rw [if_pos (by simpa [norm3] using hz)] at hu
    exact absurd hu (by simp)
  obtain ⟨a, ha, _⟩ := direct_ok hR hne'
  obtain ⟨b, hb, _⟩ := direct_ok hS hne
  set d := r.small st tx.dev.pos rx.dev.pos with hdd
  set g := largeScale (r.scenario.mean st lk) (r.scenario.std st lk) (r.lsp st) with hg
  have hds : 0 < g.ds := (C119_large_scale _ _ _).1
  obtain ⟨raw, scaled, least, hcd, hlen, hhead, hsort, hnn, ⟨m, hm, _, hlm⟩, hsc1, hsc2⟩ :=
    C119_delays_partial (r.scenario.scaling st) g.ds g.k st.los (r.scenario.num st) d.delay hv.scaling hds hv.unit hv.num
      hv.delay
  have hdl : 0 < d.delay.length := List.length_pos_of_ne_nil hv.delay
  have hnum : 0 < r.scenario.num st := hv.num
  have hshl : d.shadow.length = d.delay.length := hv.shadow
  set q := profile (r.scenario.scaling st) g.ds (r.scenario.shadowStd st) (r.scenario.num st) raw d.shadow with hq
  have hql : q.length = min (r.scenario.num st) d.delay.length := by
    rw [hq, profile, List.length_zipWith, hlen, List.length_take, hshl]
    omega
  have hqne : q ≠ [] := by
    intro hz
    rw [hz] at hql
    simp at hql
    omega
  have hqpos : ∀ x ∈ q, 0 < x := by
    intro x hx
    obtain ⟨i, hi, rfl⟩ := List.mem_iff_getElem.mp hx
    simp only [hq, profile, List.getElem_zipWith]
    exact mul_pos (Real.exp_pos _) (Real.rpow_pos_of_pos (by norm_num) _)
  obtain ⟨n, hn, hnl, hn1, hnp⟩ := normalized_ok g.k st.los q hqne hqpos
  have hnne : n ≠ [] := by
    intro hz
    rw [hz] at hnl
    simp at hnl
    exact hqne (List.length_eq_zero_iff.mp hnl.symm)
  obtain ⟨p, hp, hpne, hps, hpsum⟩ := cutoff_ok n hnne hnp
  have hcp : clusterPowers (r.scenario.scaling st) g.ds g.k (r.scenario.shadowStd st) st.los (r.scenario.num st) raw
      d.shadow = .ok p := by
    unfold clusterPowers
    rw [← hq, hn]
    exact hp
  have hpl : p.length ≤ min (r.scenario.num st) d.delay.length := by
    rw [← hql, ← hnl]; exact hps.length_le
  have hppos : 0 < p.length := List.length_pos_of_ne_nil hpne
  have hscl : scaled.length = raw.length := by
    cases hst : st.los with
    | false => rw [hsc1 hst]
    | true => rw [(hsc2 hst).2.1, List.length_map]
  have hdlen : (scaled.take p.length).length = p.length := by
    rw [List.length_take, hscl, hlen]
    omega
  have hsample := sample_of_parts (r := r) (bw := bw) hd ha hb ⟨hcd, hcp⟩
  have hox : ∀ x, 0 < oxygenLoss r.oxygen lk.fc lk.d3 least x := by
    intro x
    unfold oxygenLoss
    split
    · exact Real.rpow_pos_of_pos (by norm_num) _
    · norm_num
  have hpl10 : 0 < (10 : ℝ) ^ (-r.scenario.loss st lk / 10) := Real.rpow_pos_of_pos (by norm_num) _
  have hpc : ∀ c < p.length, 0 < p.getD c 0 := by
    intro c hc
    rw [List.getD_eq_getElem?_getD, List.getElem?_eq_getElem hc, Option.getD_some]
    exact hnp _ (hps.subset (List.getElem_mem hc))
  refine ⟨_, hsample, ?_, rfl, ?_, ?_, ?_, ?_, ?_⟩
  · show st.los = true ↔ st = 0
    simp [State.los]
  · show 0 < (scaled.take p.length).length
    rw [hdlen]; exact hppos
  · show (scaled.take p.length).length ≤ _
    rw [hdlen]; omega
  · intro hk
    have hk' : st.los = true → 0 < riceScale g.k := hk
    have h3 : scaled.head? = some 0 ∧ scaled.Pairwise (· ≤ ·) ∧ ∀ x ∈ scaled, 0 ≤ x := by
      cases hst : st.los with
      | false => rw [hsc1 hst]; exact ⟨hhead, hsort, hnn⟩
      | true => exact (hsc2 hst).2.2 (hk' hst)
    have hleast : 0 ≤ least := by
      cases hst : st.los with
      | false => rw [hlm hst]; exact hm.le
      | true => rw [(hsc2 hst).1]
    have hd3 : 0 ≤ lk.d3 := Real.sqrt_nonneg _
    refine ⟨?_, h3.2.1.sublist (List.take_sublist _ _), fun x hx => h3.2.2 x (List.mem_of_mem_take hx), ?_⟩
    · show (scaled.take p.length).head? = some 0
      rw [List.head?_take, if_neg hppos.ne', h3.1]
    · show ∑ c ∈ range (scaled.take p.length).length, p.getD c 0 * (10 : ℝ) ^ (-r.scenario.loss st lk / 10) *
        (r.gain * oxygenLoss r.oxygen lk.fc lk.d3 least ((scaled.take p.length).getD c 0)) ^ 2 ≤ _
      rw [hdlen]
      have hterm : ∀ c ∈ range p.length, p.getD c 0 * (10 : ℝ) ^ (-r.scenario.loss st lk / 10) *
          (r.gain * oxygenLoss r.oxygen lk.fc lk.d3 least ((scaled.take p.length).getD c 0)) ^ 2 ≤
          p.getD c 0 * ((10 : ℝ) ^ (-r.scenario.loss st lk / 10) * r.gain ^ 2) := by
        intro c hc
        have hc' := Finset.mem_range.mp hc
        have hx : 0 ≤ (scaled.take p.length).getD c 0 := by
          rw [List.getD_eq_getElem?_getD, List.getElem?_eq_getElem (by rw [hdlen]; exact hc'), Option.getD_some]
          exact h3.2.2 _ (List.mem_of_mem_take (List.getElem_mem _))
        have h1 : oxygenLoss r.oxygen lk.fc lk.d3 least ((scaled.take p.length).getD c 0) ≤ 1 := by
          unfold oxygenLoss
          split
          · have hl : 0 ≤ light := by norm_num [light]
            have hi : interp (lk.fc * 1e-9) (oxygenTable.getD 0 []) (oxygenTable.getD 1 []) = 1 := interp_oxygen fc hfc
            apply Real.rpow_le_one_of_one_le_of_nonpos (by norm_num)
            rw [hi]
            nlinarith [mul_nonneg hl (add_nonneg hx hleast)]
          · exact le_rfl
        have h2 := hox ((scaled.take p.length).getD c 0)
        set o := oxygenLoss r.oxygen lk.fc lk.d3 least ((scaled.take p.length).getD c 0)
        have h4 : o ^ 2 ≤ 1 := by nlinarith
        have h5 := hpc c hc'
        have h6 : 0 ≤ p.getD c 0 * (10 : ℝ) ^ (-r.scenario.loss st lk / 10) * r.gain ^ 2 := by positivity
        calc _ = (p.getD c 0 * (10 : ℝ) ^ (-r.scenario.loss st lk / 10) * r.gain ^ 2) * o ^ 2 := by ring
          _ ≤ (p.getD c 0 * (10 : ℝ) ^ (-r.scenario.loss st lk / 10) * r.gain ^ 2) * 1 :=
            mul_le_mul_of_nonneg_left h4 h6
          _ = _ := by ring
      refine (Finset.sum_le_sum hterm).trans ?_
      rw [← Finset.sum_mul, sum_range_getD]
      have h7 : 0 ≤ (10 : ℝ) ^ (-r.scenario.loss st lk / 10) * r.gain ^ 2 := by positivity
      nlinarith
  · intro hgn c hc
    show 0 < p.getD c 0 * (10 : ℝ) ^ (-r.scenario.loss st lk / 10) *
        (r.gain * oxygenLoss r.oxygen lk.fc lk.d3 least ((scaled.take p.length).getD c 0)) ^ 2
    have hc' : c < p.length := by rw [← hdlen]; exact hc
    have h1 := hpc c hc'
    have h2 := hox ((scaled.take p.length).getD c 0)
    have h3 : 0 < (r.gain * oxygenLoss r.oxygen lk.fc lk.d3 least ((scaled.take p.length).getD c 0)) ^ 2 := by
      rw [mul_pow]
      positivity
    positivity
  · rfl

/-- C119: devices at identical positions are refused. -/
theorem C119_position (r : Realization) (tx rx : End) (fc bw : ℝ) (h : tx.dev.pos = rx.dev.pos) :
    r.sample tx rx fc bw = .error .runtime := by
  simp only [Realization.sample]
  rw [if_pos (by simp [link, h, norm3])]

/-- C119: polarization transformations keep the power of the polarization transmitted, and transfer it to the other
polarization divided by the cross-polarization power ratio drawn, in decibel. -/
theorem C119_polarization (r : Realization) (tx rx : End) (fc bw : ℝ) (s : Sample) (h : r.sample tx rx fc bw = .ok s) :
    let st := r.state (link fc tx.dev.pos rx.dev.pos) tx.dev.pos rx.dev.pos
    ∀ p q c m, ‖s.jones p q c m‖ ^ 2 = if p = q then 1 else
      1 / (10 : ℝ) ^ ((r.scenario.xprMean st + r.scenario.xprStd st * (r.small st tx.dev.pos rx.dev.pos).xpr c m) / 10) := by
  intro st p q c m
  obtain ⟨hd, a, b, raw, scaled, least, pw, ha, hb, hcd, hcp, rfl⟩ := sample_parts h
  simp only [Realization.build, jones, norm_mul]
  have he : ∀ x : ℝ, ‖Complex.exp (2 * Complex.I * Real.pi * (x : ℝ))‖ = 1 := by
    intro x
    have : (2 * Complex.I * Real.pi * (x : ℝ) : ℂ) = ((2 * Real.pi * x : ℝ) : ℂ) * Complex.I := by push_cast; ring
    rw [this, Complex.norm_exp_ofReal_mul_I]
  rw [he, one_mul]
  split
  · simp
  · have hx : 0 < (10 : ℝ) ^ (-0.05 * (r.scenario.xprMean st + r.scenario.xprStd st *
        (r.small st tx.dev.pos rx.dev.pos).xpr c m)) := Real.rpow_pos_of_pos (by norm_num) _
    rw [Complex.norm_real, Real.norm_of_nonneg hx.le, ← Real.rpow_natCast, ← Real.rpow_mul (by norm_num), one_div,
      ← Real.rpow_neg (by norm_num)]
    congr 1
    push_cast
    ring

/-! ### Reciprocal samples -/

/-- C119: the sample of the opposite direction of a link whose devices did not move has the same delays and powers, with
angles of arrival and departure exchanged. If frequency, bandwidth or positions changed, a new sample is drawn. -/
theorem C119_reciprocal_partial (r : Realization) (tx rx : End) (fc bw : ℝ) (s : Sample)
    (h : r.sample tx rx fc bw = .ok s) :
    (∃ s', r.reciprocal s rx tx fc bw = .ok s' ∧ s'.aoa = s.aod ∧ s'.zoa = s.zod ∧ s'.aod = s.aoa ∧ s'.zod = s.zoa ∧
      s'.delays = s.delays ∧ s'.powers = s.powers ∧ s'.offset = s.offset ∧ s'.los = s.los ∧ s'.rice = s.rice ∧
      s'.tx = rx.dev ∧ s'.rx = tx.dev) ∧
    ∀ (tx' rx' : End) (fc' bw' : ℝ),
      fc' ≠ fc ∨ bw' ≠ bw ∨ tx'.dev.pos ≠ rx.dev.pos ∨ rx'.dev.pos ≠ tx.dev.pos →
      r.reciprocal s tx' rx' fc' bw' = r.sample tx' rx' fc' bw' := by
  obtain ⟨hb, hf, ht, hr⟩ := sample_link h
  constructor
  · refine ⟨{ s.reciprocal with tx := rx.dev, rx := tx.dev }, ?_, rfl, rfl, rfl, rfl, rfl, rfl, rfl, rfl, rfl, rfl, rfl⟩
    unfold Realization.reciprocal
    rw [if_neg (by simp [hb, hf]), if_neg (by simp [ht, hr])]
  · intro tx' rx' fc' bw' hne
    unfold Realization.reciprocal
    rw [hb, hf, ht, hr]
    by_cases h1 : bw' ≠ bw ∨ fc' ≠ fc
    · rw [if_pos h1]
    · rw [if_neg h1, if_pos]
      push Not at h1
      rcases hne with h2 | h2 | h2 | h2
      · exact absurd h1.2 h2
      · exact absurd h1.1 h2
      · exact Or.inl h2
      · exact Or.inr h2

/-- C119 fails for devices which rotate in between: the sample of the opposite direction is not drawn again, and keeps
the angles of the orientation before. With line of sight, the rays of the first cluster leave the rotated device in
another direction than to the other device. -/
theorem C119_orientation_fails (r : Realization) (tx rx rx' : End) (fc bw : ℝ) (s : Sample) (R S T : Mat3)
    (h : r.sample tx rx fc bw = .ok s) (hlos : s.los = true) (hR : Placed tx R) (hS : Placed rx S)
    (hT : Placed rx' T) (hrx : rx'.dev = rx.dev) (hc : Coupled r)
    (hne : (T * Sᵀ).mulVec (scale (tx.dev.pos - rx.dev.pos) (norm3 (tx.dev.pos - rx.dev.pos))) ≠
      scale (tx.dev.pos - rx.dev.pos) (norm3 (tx.dev.pos - rx.dev.pos))) :
    ∃ s' t', r.reciprocal s rx' tx fc bw = .ok s' ∧ r.sample tx rx' fc bw = .ok t' ∧
      T.mulVec (fromSpherical (mean t'.aoa 0) (mean t'.zoa 0)) =
        scale (tx.dev.pos - rx.dev.pos) (norm3 (tx.dev.pos - rx.dev.pos)) ∧
      T.mulVec (fromSpherical (mean s'.aod 0) (mean s'.zod 0)) ≠
        scale (tx.dev.pos - rx.dev.pos) (norm3 (tx.dev.pos - rx.dev.pos)) := by
  have hsight := (C119_sight_partial r tx rx fc bw s R S h hlos hR hS hc).2
  obtain ⟨hb, hf, ht, hr⟩ := sample_link h
  obtain ⟨hd, a, b, raw, scaled, least, p, ha, _, hcd, hcp, hs⟩ := sample_parts h
  have hpne : tx.dev.pos - rx'.dev.pos ≠ 0 := by
    rw [hrx]
    intro hz
    apply hd
    simp only [link, hz]
    simp [norm3]
  obtain ⟨b', hb', _⟩ := direct_ok hT hpne
  have hs' := sample_of_parts (r := r) (tx := tx) (rx := rx') (fc := fc) (bw := bw) (a := a) (b := b') (raw := raw)
    (scaled := scaled) (least := least) (p := p) (by rw [hrx]; exact hd) (by rw [hrx]; exact ha) hb'
    (by rw [hrx]; exact ⟨hcd, hcp⟩)
  refine ⟨{ s.reciprocal with tx := rx'.dev, rx := tx.dev }, _, ?_, hs', ?_, ?_⟩
  · unfold Realization.reciprocal
    rw [if_neg (by simp [hb, hf]), if_neg (by simp [ht, hr, hrx])]
  · have hl' : (r.build tx.dev rx'.dev bw (link fc tx.dev.pos rx'.dev.pos)
        (r.state (link fc tx.dev.pos rx'.dev.pos) tx.dev.pos rx'.dev.pos)
        (r.small (r.state (link fc tx.dev.pos rx'.dev.pos) tx.dev.pos rx'.dev.pos) tx.dev.pos rx'.dev.pos)
        (largeScale (r.scenario.mean (r.state (link fc tx.dev.pos rx'.dev.pos) tx.dev.pos rx'.dev.pos)
          (link fc tx.dev.pos rx'.dev.pos))
          (r.scenario.std (r.state (link fc tx.dev.pos rx'.dev.pos) tx.dev.pos rx'.dev.pos)
            (link fc tx.dev.pos rx'.dev.pos))
          (r.lsp (r.state (link fc tx.dev.pos rx'.dev.pos) tx.dev.pos rx'.dev.pos))) a b' scaled least p).los = true := by
      rw [hrx]
      rw [hs] at hlos
      exact hlos
    have := (C119_sight_partial r tx rx' fc bw _ R T hs' hl' hR hT hc).2
    rw [hrx] at this ⊢
    exact this
  · intro he
    apply hne
    rw [← hsight, Matrix.mulVec_mulVec, Matrix.mul_assoc, hS.1.2.1, Matrix.mul_one, hsight]
    exact he

/-! ### Scaling factors of angles -/

theorem closest_spec (n : Nat) (l : List (Nat × ℝ)) (hne : l ≠ []) :
    closest n l ∈ l ∧ ∀ e ∈ l, Int.natAbs (((closest n l).1 : ℤ) - n) ≤ Int.natAbs ((e.1 : ℤ) - n) := by
  induction l with
  | nil => exact absurd rfl hne
  | cons e l ih =>
    cases l with
    | nil => simp [closest]
    | cons f l =>
      obtain ⟨h1, h2⟩ := ih (by simp)
      simp only [closest]
      split
      · rename_i h
        refine ⟨List.mem_cons_self, fun x hx => ?_⟩
        rcases List.mem_cons.mp hx with rfl | hx
        · exact le_rfl
        · exact h.trans (h2 x hx)
      · rename_i h
        refine ⟨List.mem_cons_of_mem _ h1, fun x hx => ?_⟩
        rcases List.mem_cons.mp hx with rfl | hx
        · omega
        · exact h2 x hx

/-- C119: the scaling factors of angles without line of sight are those the tables list for the number of clusters, and
those of the closest number if it is not listed. -/
theorem C119_scaling (k : ℝ) (n : Nat) :
    (∃ e ∈ azimuthTable, azimuthScale k false n = e.2 ∧
      ∀ f ∈ azimuthTable, Int.natAbs ((e.1 : ℤ) - n) ≤ Int.natAbs ((f.1 : ℤ) - n)) ∧
    (∃ e ∈ zenithTable, zenithScale k false n = e.2 ∧
      ∀ f ∈ zenithTable, Int.natAbs ((e.1 : ℤ) - n) ≤ Int.natAbs ((f.1 : ℤ) - n)) ∧
    (∀ e ∈ azimuthTable, azimuthScale k false e.1 = e.2) ∧ ∀ e ∈ zenithTable, zenithScale k false e.1 = e.2 := by
  have ha := closest_spec n azimuthTable (by simp [azimuthTable])
  have hz := closest_spec n zenithTable (by simp [zenithTable])
  refine ⟨⟨_, ha.1, by simp [azimuthScale], ha.2⟩, ⟨_, hz.1, by simp [zenithScale], hz.2⟩, ?_, ?_⟩
  · intro e he
    simp only [azimuthTable, List.mem_cons, List.not_mem_nil, or_false] at he
    rcases he with rfl | rfl | rfl | rfl | rfl | rfl | rfl | rfl | rfl | rfl | rfl | rfl <;>
      simp [azimuthScale, azimuthTable, closest]
  · intro e he
    simp only [zenithTable, List.mem_cons, List.not_mem_nil, or_false] at he
    rcases he with rfl | rfl | rfl | rfl | rfl | rfl | rfl | rfl <;> simp [zenithScale, zenithTable, closest]

/-- C119: with line of sight the scaling factors of angles are those without, times a cubic polynomial of the Rice factor, one for
azimuths and one for zeniths. -/
theorem C119_scaling_sight (k : ℝ) (n : Nat) :
    azimuthScale k true n = azimuthScale k false n * (1.1035 - 0.028 * k - 0.002 * k ^ 2 + 0.0001 * k ^ 3) ∧
      zenithScale k true n = zenithScale k false n * (1.3086 + 0.0339 * k - 0.0077 * k ^ 2 + 0.0002 * k ^ 3) := by
  unfold azimuthScale zenithScale
  constructor <;> norm_num

/-! ### A realization -/

/-- A realization of a scenario with and without line of sight. -/
noncomputable def someRealization (st : State) : Realization where
  scenario :=
    { mean := fun _ _ i => if i = 5 then 9 else if i = 0 then -7 else 1
      std := fun _ _ _ => 0.3
      scaling := fun _ => 2.5
      xprMean := fun _ => 8
      xprStd := fun _ => 4
      shadowStd := fun _ => 3
      num := fun _ => 12
      aodSpread := fun _ => 5
      aoaSpread := fun _ => 11
      zoaSpread := fun _ => 7
      zodOffset := fun _ _ => 0
      loss := fun _ _ => 100
      choose := fun _ _ => 0 }
  expected := some st
  uniform := fun _ _ => 0.5
  small := fun _ _ _ => ⟨[0, 1, -1], [0.5, 0.25, 0.75], fun _ => 0, fun _ => 0, fun _ _ => 0, fun _ _ _ _ => 0⟩
  lsp := fun _ _ => 0
  azimuthSign := fun _ => 1
  zenithSign := fun _ => 1
  coupling := fun _ _ m => m
  tof := true
  oxygen := true
  gain := 1

/-- A device. -/
noncomputable def someEnd (p : Vec3) (R : Mat3) : End := ⟨⟨p, 0, 1, 1, 1, fun _ _ _ _ _ => 1⟩, assemble R p⟩

/-- Half a turn around the vertical axis. -/
def halfTurn : Mat3 := !![-1, 0, 0; 0, -1, 0; 0, 0, 1]

theorem halfTurn_rotation : IsRotation halfTurn := by
  apply isRotation_of
  · ext i j
    fin_cases i <;> fin_cases j <;> simp [halfTurn, Matrix.mul_apply, Fin.sum_univ_three]
  · simp [halfTurn, Matrix.det_fin_three]

theorem someRealization_coupled (st : State) : Coupled (someRealization st) := fun _ _ => Set.bijOn_id _

theorem someRealization_drawable (st : State) (lk : Link) (a b : Vec3) : Drawable (someRealization st) lk a b where
  scaling := by norm_num [someRealization]
  num := by norm_num [someRealization]
  delay := by simp [someRealization]
  unit := by
    intro u hu
    simp only [someRealization, List.mem_cons, List.not_mem_nil, or_false] at hu
    rcases hu with rfl | rfl | rfl <;> norm_num
  shadow := by simp [someRealization]

/-- Hypotheses of the theorems above are met: samples with and without line of sight, between a device which is turned
away and one which is not. -/
theorem someRealization_sample (st : State) : ∃ s, (someRealization st).sample (someEnd ![0, 0, 25] halfTurn)
    (someEnd ![100, 0, 25] 1) 3.5e9 1e8 = .ok s ∧ (s.los = true ↔ st = 0) ∧ ∀ c < s.delays.length, 0 < s.powers c := by
  obtain ⟨s, h, h1, _, _, _, _, h2, _⟩ := C119_sample_partial (someRealization st) (someEnd ![0, 0, 25] halfTurn)
    (someEnd ![100, 0, 25] 1) 3.5e9 1e8 halfTurn 1 ⟨halfTurn_rotation, rfl⟩ ⟨isRotation_of _ (by simp) (by simp), rfl⟩
    (by intro h; have := congrFun h 0; norm_num [someEnd] at this) (by norm_num) (someRealization_drawable _ _ _ _)
  exact ⟨s, h, h1, h2 (by norm_num [someRealization])⟩

example (s : Sample) (h : (someRealization 0).sample (someEnd ![0, 0, 25] halfTurn) (someEnd ![100, 0, 25] 1) 3.5e9 1e8 =
    .ok s) (hl : s.los = true) : fromSpherical (mean s.aod 0) (mean s.zod 0) ≠ ![1, 0, 0] := by
  have hn : norm3 ![100, 0, 0] = 100 := by
    have : norm3 ![100, 0, 0] = Real.sqrt (100 ^ 2) := by simp [norm3]
    rw [this, Real.sqrt_sq (by norm_num)]
  have hu : scale ((someEnd ![100, 0, 25] 1).dev.pos - (someEnd ![0, 0, 25] halfTurn).dev.pos)
      (norm3 ((someEnd ![100, 0, 25] 1).dev.pos - (someEnd ![0, 0, 25] halfTurn).dev.pos)) = ![1, 0, 0] := by
    have : (someEnd ![100, 0, 25] 1).dev.pos - (someEnd ![0, 0, 25] halfTurn).dev.pos = ![100, 0, 0] := by
      funext i; fin_cases i <;> simp [someEnd]
    rw [this, hn]
    funext i; fin_cases i <;> simp [scale]
  have := (C119_frame_fails (someRealization 0) _ _ _ _ s halfTurn 1 h hl ⟨halfTurn_rotation, rfl⟩
    ⟨isRotation_of _ (by simp) (by simp), rfl⟩ (someRealization_coupled 0)).1
  rw [hu] at this
  refine this fun he => ?_
  have := congrFun he 0
  simp [halfTurn, Matrix.mulVec, dotProduct, Fin.sum_univ_three] at this
  norm_num at this

end Verif.CdlDraw
