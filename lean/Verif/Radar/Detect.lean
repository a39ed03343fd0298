import Verif.Radar.Cube
import Mathlib.Data.List.Sublists
import Mathlib.Data.List.Range
import Mathlib.Analysis.SpecialFunctions.Trigonometric.Basic

/-!
# C41: threshold and maximum detectors

`radar/detection.py`.  `sin` and `cos` are arbitrary functions until their values matter.
-/

namespace Verif.Radar

variable {K : Type} [Field K] [LinearOrder K] [IsStrictOrderedRing K]

/-- `PointDetection`. -/
structure Point (K : Type) where
  pos : K × K × K
  vel : K × K × K
  power : K
  deriving DecidableEq

/-- The sine and cosine functions. -/
structure Trig (K : Type) where
  sin : K → K
  cos : K → K

/-- The vector `normal_vector`, `radar/detection.py` 108-110. -/
def normal (t : Trig K) (zenith azimuth : K) : K × K × K :=
  (t.cos azimuth * t.sin zenith, t.sin azimuth * t.sin zenith, t.cos zenith)

/-- Product with a number. -/
def scale (r : K) (v : K × K × K) : K × K × K := (r * v.1, r * v.2.1, r * v.2.2)

/-- `PointDetection.FromSpherical` and the constructor, `radar/detection.py` 47-78, 80-116. -/
def fromSpherical (t : Trig K) (zenith azimuth range velocity power : K) : Except PyErr (Point K) :=
  if power ≤ 0 then .error .value
  else .ok ⟨scale range (normal t zenith azimuth), scale velocity (normal t zenith azimuth), power⟩

/-- `velocity_bins[j]`, `radar/cube.py` 333-346; `light` is the speed of light. -/
def velocityBin (light : K) (c : Cube K) (j : Nat) : Except PyErr K :=
  if c.fc ≤ 0 then .error .runtime
  else match c.doppler[j]? with
    | none => .error .index
    | some d => .ok (d * light / c.fc)

/-- Construction of the point cloud, `radar/detection.py` 171-199. -/
def newCloud (c : Cube K) : Except PyErr Unit :=
  match maxOf c.range with
  | .error e => .error e
  | .ok r => if r < 0 then .error .value else .ok ()

/-- Body of the loop over detections, `radar/detection.py` 399-408 and 623-632: the two columns of the
angle bins are azimuth and zenith. -/
def detection (t : Trig K) (light : K) (c : Cube K) (p : Nat × Nat × Nat) : Except PyErr (Point K) :=
  match c.angle[p.1]? with
  | none => .error .index
  | some [azimuth, zenith] => match velocityBin light c p.2.1 with
    | .error e => .error e
    | .ok v => match c.range[p.2.2]? with
      | none => .error .index
      | some r => fromSpherical t zenith azimuth r v (c.data p)
  | some _ => .error .value

/-- The loop over detections. -/
def detections (t : Trig K) (light : K) (c : Cube K) : List (Nat × Nat × Nat) → Except PyErr (List (Point K))
  | [] => .ok []
  | p :: ps => match detection t light c p with
    | .error e => .error e
    | .ok x => match detections t light c ps with
      | .error e => .error e
      | .ok xs => .ok (x :: xs)

/-- Index beside `i` in a dimension of size `n`; `maximum_filter` repeats the border (mode `reflect`). -/
def before (i : Nat) : Nat := i - 1

/-- The next index, see `before`. -/
def after (n i : Nat) : Nat := if i + 1 < n then i + 1 else i

/-- `maximum_filter` with the footprint of `generate_binary_structure(3, 1)`: the bin and its six
neighbours. -/
def maxFilter (c : Cube K) (d : Nat × Nat × Nat → K) (p : Nat × Nat × Nat) : K :=
  [d (before p.1, p.2.1, p.2.2), d (after c.na p.1, p.2.1, p.2.2), d (p.1, before p.2.1, p.2.2),
    d (p.1, after c.nb p.2.1, p.2.2), d (p.1, p.2.1, before p.2.2),
    d (p.1, p.2.1, after c.nc p.2.2)].foldl max (d p)

/-- Data seen by the threshold detector, `radar/detection.py` 376-382. -/
def thresholdData (c : Cube K) (normalize : Bool) (mx mn : K) (p : Nat × Nat × Nat) : K :=
  if normalize ∧ mx > 0 then (c.data p - mn) / mx else c.data p

/-- `argwhere` of the candidates, `radar/detection.py` 384-395. -/
def thresholdIdxs (c : Cube K) (minPower : K) (peak : Bool) (d : Nat × Nat × Nat → K) :
    List (Nat × Nat × Nat) :=
  if peak then c.idxs.filter (fun p => decide (maxFilter c d p = d p) && decide (minPower ≤ d p))
  else c.idxs.filter (fun p => decide (minPower ≤ d p))

/-- `ThresholdDetector.detect`, `radar/detection.py` 374-410. -/
def thresholdDetect (t : Trig K) (light : K) (c : Cube K) (minPower : K) (normalize peak : Bool) :
    Except PyErr (List (Point K)) :=
  match maxOf c.values, minOf c.values with
  | .ok mx, .ok mn => match newCloud c with
    | .error e => .error e
    | .ok () =>
      detections t light c (thresholdIdxs c minPower peak (thresholdData c normalize mx mn))
  | _, _ => .error .value

/-- `argmax` of the flattened array: the first of the largest values. -/
def argmax (d : Nat × Nat × Nat → K) : List (Nat × Nat × Nat) → Option (Nat × Nat × Nat)
  | [] => none
  | p :: ps => some (ps.foldl (fun best q => if d best < d q then q else best) p)

/-- `MaxDetector.detect`, `radar/detection.py` 434-455: azimuth and zenith are passed in the order of the
angle bins to a function expecting zenith and azimuth. -/
def maxDetect (t : Trig K) (light : K) (c : Cube K) : Except PyErr (List (Point K)) :=
  match argmax c.data c.idxs with
  | none => .error .value
  | some p => match newCloud c with
    | .error e => .error e
    | .ok () =>
      if c.data p ≤ 0 then .ok []
      else match c.angle[p.1]? with
        | some (a0 :: a1 :: _) => match velocityBin light c p.2.1 with
          | .error e => .error e
          | .ok v => match c.range[p.2.2]? with
            | none => .error .index
            | some r => match fromSpherical t a0 a1 r v (c.data p) with
              | .error e => .error e
              | .ok x => .ok [x]
        | _ => .error .index

/-! ### Specification -/

/-- A cube as the radar operators create it: as many bins as data in all dimensions, none empty, two
columns of angles, ranges not all negative, known carrier frequency, no negative powers. -/
structure Good (c : Cube K) : Prop where
  na : 0 < c.na
  nb : 0 < c.nb
  nc : 0 < c.nc
  angle : c.angle.length = c.na
  cols : ∀ r ∈ c.angle, r.length = 2
  doppler : c.doppler.length = c.nb
  range : c.range.length = c.nc
  rangePos : ∃ r ∈ c.range, 0 ≤ r
  fc : 0 < c.fc
  data : ∀ p, 0 ≤ c.data p

/-- Where a target seen in bin `(i, j, k)` is, how fast it moves along the line of sight and its power:
the second column of the angle bins is the zenith, the first the azimuth. -/
def InBin (t : Trig K) (light : K) (c : Cube K) (p : Nat × Nat × Nat) (x : Point K) : Prop :=
  ∃ az ze dop r, c.angle[p.1]? = some [az, ze] ∧ c.doppler[p.2.1]? = some dop ∧
    c.range[p.2.2]? = some r ∧
    x.pos = (r * (t.cos az * t.sin ze), r * (t.sin az * t.sin ze), r * t.cos ze) ∧
    x.vel = (dop * light / c.fc * (t.cos az * t.sin ze), dop * light / c.fc * (t.sin az * t.sin ze),
      dop * light / c.fc * t.cos ze) ∧ x.power = c.data p

/-- Adjacent indices. -/
def Adjacent (i j : Nat) : Prop := i = j + 1 ∨ j = i + 1

/-- Bins adjacent along one dimension. -/
def Neighbour (p q : Nat × Nat × Nat) : Prop :=
  (Adjacent p.1 q.1 ∧ p.2 = q.2) ∨ (p.1 = q.1 ∧ Adjacent p.2.1 q.2.1 ∧ p.2.2 = q.2.2) ∨
    (p.1 = q.1 ∧ p.2.1 = q.2.1 ∧ Adjacent p.2.2 q.2.2)

/-! ### Proofs -/

omit [Field K] [IsStrictOrderedRing K] in
/-- A bin passes the peak filter iff no adjacent bin of the cube is larger. -/
theorem maxFilter_iff (c : Cube K) (d : Nat × Nat × Nat → K) (p : Nat × Nat × Nat) (hp : p ∈ c.idxs) :
    maxFilter c d p = d p ↔ ∀ q ∈ c.idxs, Neighbour p q → d q ≤ d p := by
  obtain ⟨i, j, k⟩ := p
  rw [mem_idxs] at hp
  obtain ⟨hi, hj, hk⟩ := hp
  obtain ⟨h1, h2, h3⟩ := foldl_max_spec [d (before i, j, k), d (after c.na i, j, k), d (i, before j, k),
    d (i, after c.nb j, k), d (i, j, before k), d (i, j, after c.nc k)] (d (i, j, k))
  have e : maxFilter c d (i, j, k) = d (i, j, k) ↔ ∀ y ∈ [d (before i, j, k), d (after c.na i, j, k),
      d (i, before j, k), d (i, after c.nb j, k), d (i, j, before k), d (i, j, after c.nc k)],
      y ≤ d (i, j, k) := by
    unfold maxFilter
    constructor
    · intro h y hy
      have := h3 y hy
      rwa [h] at this
    · intro h
      rcases h1 with h1 | h1
      · exact h1
      · exact le_antisymm (h _ h1) h2
  rw [e]
  constructor
  · rintro h ⟨i', j', k'⟩ hq hn
    rw [mem_idxs] at hq
    obtain ⟨hi', hj', hk'⟩ := hq
    rcases hn with ⟨ha, hb⟩ | ⟨ha, hb, hc⟩ | ⟨ha, hb, hc⟩
    · simp only [Prod.mk.injEq] at hb
      obtain ⟨rfl, rfl⟩ := hb
      dsimp only [Adjacent] at ha
      rcases ha with ha | ha
      · have : i' = before i := by simp [before]; omega
        subst this
        exact h _ (by simp)
      · have : i' = after c.na i := by simp only [after]; rw [if_pos (by omega)]; exact ha
        subst this
        exact h _ (by simp)
    · dsimp only [Adjacent] at ha hb hc
      subst ha hc
      rcases hb with hb | hb
      · have : j' = before j := by simp [before]; omega
        subst this
        exact h _ (by simp)
      · have : j' = after c.nb j := by simp only [after]; rw [if_pos (by omega)]; exact hb
        subst this
        exact h _ (by simp)
    · dsimp only [Adjacent] at ha hb hc
      subst ha hb
      rcases hc with hc | hc
      · have : k' = before k := by simp [before]; omega
        subst this
        exact h _ (by simp)
      · have : k' = after c.nc k := by simp only [after]; rw [if_pos (by omega)]; exact hc
        subst this
        exact h _ (by simp)
  · intro h y hy
    have nb : ∀ q : Nat × Nat × Nat, q ∈ c.idxs → (q = (i, j, k) ∨ Neighbour (i, j, k) q) → d q ≤ d (i, j, k) := by
      rintro q hq (rfl | hn)
      · exact le_rfl
      · exact h q hq hn
    simp only [List.mem_cons, List.not_mem_nil, or_false] at hy
    rcases hy with rfl | rfl | rfl | rfl | rfl | rfl
    · apply nb _ ((mem_idxs _ _ _ _).mpr ⟨by simp [before]; omega, hj, hk⟩)
      by_cases h0 : i = 0
      · left; simp [before, h0]
      · right; left; refine ⟨?_, rfl⟩; left; simp [before]; omega
    · apply nb _ ((mem_idxs _ _ _ _).mpr ⟨by simp only [after]; split <;> omega, hj, hk⟩)
      by_cases h0 : i + 1 < c.na
      · right; left; refine ⟨?_, rfl⟩; right; simp [after, h0]
      · left; simp [after, h0]
    · apply nb _ ((mem_idxs _ _ _ _).mpr ⟨hi, by simp [before]; omega, hk⟩)
      by_cases h0 : j = 0
      · left; simp [before, h0]
      · right; right; left; refine ⟨rfl, ?_, rfl⟩; left; simp [before]; omega
    · apply nb _ ((mem_idxs _ _ _ _).mpr ⟨hi, by simp only [after]; split <;> omega, hk⟩)
      by_cases h0 : j + 1 < c.nb
      · right; right; left; refine ⟨rfl, ?_, rfl⟩; right; simp [after, h0]
      · left; simp [after, h0]
    · apply nb _ ((mem_idxs _ _ _ _).mpr ⟨hi, hj, by simp [before]; omega⟩)
      by_cases h0 : k = 0
      · left; simp [before, h0]
      · right; right; right; refine ⟨rfl, rfl, ?_⟩; left; simp [before]; omega
    · apply nb _ ((mem_idxs _ _ _ _).mpr ⟨hi, hj, by simp only [after]; split <;> omega⟩)
      by_cases h0 : k + 1 < c.nc
      · right; right; right; refine ⟨rfl, rfl, ?_⟩; right; simp [after, h0]
      · left; simp [after, h0]

omit [Field K] [LinearOrder K] [IsStrictOrderedRing K] in
/-- Every bin appears once. -/
theorem idxs_nodup (c : Cube K) : c.idxs.Nodup := by
  unfold Cube.idxs
  rw [List.nodup_flatMap]
  refine ⟨?_, ?_⟩
  · intro i _
    rw [List.nodup_flatMap]
    refine ⟨?_, ?_⟩
    · intro j _
      exact List.nodup_range.map (fun a b h => by simpa using h)
    · refine List.nodup_range.imp ?_
      intro j j' hj x hx hx'
      simp only [List.mem_map, List.mem_range] at hx hx'
      obtain ⟨k, _, rfl⟩ := hx
      obtain ⟨k', _, e⟩ := hx'
      simp only [Prod.mk.injEq] at e
      exact hj e.2.1.symm
  · refine List.nodup_range.imp ?_
    intro i i' hi x hx hx'
    simp only [List.mem_flatMap, List.mem_map, List.mem_range] at hx hx'
    obtain ⟨j, _, k, _, rfl⟩ := hx
    obtain ⟨j', _, k', _, e⟩ := hx'
    simp only [Prod.mk.injEq] at e
    exact hi e.1.symm

omit [IsStrictOrderedRing K] in
theorem Good.bins {c : Cube K} (h : Good c) (i j k : Nat) (hi : i < c.na) (hj : j < c.nb) (hk : k < c.nc) :
    ∃ az ze d r, c.angle[i]? = some [az, ze] ∧ c.doppler[j]? = some d ∧ c.range[k]? = some r := by
  have la : i < c.angle.length := by rw [h.angle]; exact hi
  have ld : j < c.doppler.length := by rw [h.doppler]; exact hj
  have lr : k < c.range.length := by rw [h.range]; exact hk
  have hcol := h.cols c.angle[i] (List.getElem_mem _)
  obtain ⟨az, ze, hrow⟩ : ∃ az ze, c.angle[i] = [az, ze] := by
    match c.angle[i], hcol with
    | [az, ze], _ => exact ⟨az, ze, rfl⟩
  exact ⟨az, ze, _, _, by rw [List.getElem?_eq_getElem la, hrow], List.getElem?_eq_getElem ld,
    List.getElem?_eq_getElem lr⟩

theorem detection_ok (t : Trig K) (light : K) (c : Cube K) (h : Good c) (p : Nat × Nat × Nat)
    (hp : p ∈ c.idxs) (hpos : 0 < c.data p) :
    ∃ x, detection t light c p = .ok x ∧ InBin t light c p x := by
  obtain ⟨i, j, k⟩ := p
  rw [mem_idxs] at hp
  obtain ⟨hi, hj, hk⟩ := hp
  obtain ⟨az, ze, d, r, ea, ed, er⟩ := h.bins i j k hi hj hk
  refine ⟨⟨scale r (normal t ze az), scale (d * light / c.fc) (normal t ze az), c.data (i, j, k)⟩, ?_,
    az, ze, d, r, ea, ed, er, ?_⟩
  · unfold detection velocityBin fromSpherical
    dsimp only
    rw [ea]
    dsimp only
    rw [if_neg (not_le.mpr h.fc), ed]
    dsimp only
    rw [er]
    dsimp only
    rw [if_neg (not_le.mpr hpos)]
  · exact ⟨rfl, rfl, rfl⟩

theorem detections_ok (t : Trig K) (light : K) (c : Cube K) (h : Good c) (ps : List (Nat × Nat × Nat))
    (hp : ∀ p ∈ ps, p ∈ c.idxs ∧ 0 < c.data p) :
    ∃ xs, detections t light c ps = .ok xs ∧ List.Forall₂ (InBin t light c) ps xs := by
  induction ps with
  | nil => exact ⟨[], rfl, .nil⟩
  | cons p ps ih =>
    obtain ⟨x, e1, b1⟩ := detection_ok t light c h p (hp p List.mem_cons_self).1 (hp p List.mem_cons_self).2
    obtain ⟨xs, e2, b2⟩ := ih (fun q hq => hp q (List.mem_cons_of_mem _ hq))
    refine ⟨x :: xs, ?_, .cons b1 b2⟩
    unfold detections
    rw [e1]
    dsimp only
    rw [e2]

theorem newCloud_ok (c : Cube K) (h : Good c) : newCloud c = .ok () := by
  obtain ⟨r, hr, h0⟩ := h.rangePos
  unfold newCloud
  cases hm : maxOf c.range with
  | error e =>
    cases hl : c.range with
    | nil => rw [hl] at hr; simp at hr
    | cons x l => rw [hl] at hm; cases hm
  | ok m =>
    dsimp only
    rw [if_neg (not_lt.mpr (h0.trans (((maxOf_spec _ _).mp hm).2 r hr)))]

theorem idxs_ne (c : Cube K) (h : Good c) : ∃ p l, c.idxs = p :: l := by
  have : (0, 0, 0) ∈ c.idxs := (mem_idxs _ _ _ _).mpr ⟨h.na, h.nb, h.nc⟩
  cases hl : c.idxs with
  | nil => rw [hl] at this; simp at this
  | cons p l => exact ⟨p, l, rfl⟩

/-- **C41** (threshold): the detector reports exactly the bins whose power, shifted and normalised if
so configured, is at least the threshold and, with peak detection, not exceeded by an adjacent bin:
one point per such bin, in the bins' order, each at the bin's angles and range with the bin's velocity
and power. -/
theorem C41_threshold (t : Trig K) (light : K) (c : Cube K) (h : Good c) (minPower : K)
    (hmin : 0 < minPower) (normalize peak : Bool) :
    ∃ mx mn sel xs, mx ∈ c.values ∧ (∀ y ∈ c.values, y ≤ mx) ∧ mn ∈ c.values ∧ (∀ y ∈ c.values, mn ≤ y) ∧
      thresholdDetect t light c minPower normalize peak = .ok xs ∧ sel.Nodup ∧ sel.Sublist c.idxs ∧
      List.Forall₂ (InBin t light c) sel xs ∧
      ∀ p, p ∈ sel ↔ p ∈ c.idxs ∧
        (if normalize ∧ mx > 0 then minPower * mx ≤ c.data p - mn else minPower ≤ c.data p) ∧
        (peak = true → ∀ q ∈ c.idxs, Neighbour p q → c.data q ≤ c.data p) := by
  obtain ⟨p0, l0, hl0⟩ := idxs_ne c h
  obtain ⟨mx, hmx⟩ : ∃ mx, maxOf c.values = .ok mx := by
    unfold Cube.values; rw [hl0]; exact ⟨_, rfl⟩
  obtain ⟨mn, hmn⟩ : ∃ mn, minOf c.values = .ok mn := by
    unfold Cube.values; rw [hl0]; exact ⟨_, rfl⟩
  obtain ⟨x1, x2⟩ := (maxOf_spec _ _).mp hmx
  obtain ⟨n1, n2⟩ := (minOf_spec _ _).mp hmn
  have mn0 : 0 ≤ mn := by
    unfold Cube.values at n1
    obtain ⟨p, _, rfl⟩ := List.mem_map.mp n1
    exact h.data p
  have hthr : ∀ p, minPower ≤ thresholdData c normalize mx mn p ↔
      (if normalize ∧ mx > 0 then minPower * mx ≤ c.data p - mn else minPower ≤ c.data p) := by
    intro p
    unfold thresholdData
    split
    · rename_i hn
      rw [le_div_iff₀ hn.2]
    · exact Iff.rfl
  have hord : ∀ p q, thresholdData c normalize mx mn q ≤ thresholdData c normalize mx mn p ↔
      c.data q ≤ c.data p := by
    intro p q
    unfold thresholdData
    split
    · rename_i hn
      rw [div_le_div_iff_of_pos_right hn.2]
      constructor <;> intro h <;> linarith
    · exact Iff.rfl
  have hsel : ∀ p, p ∈ thresholdIdxs c minPower peak (thresholdData c normalize mx mn) ↔ p ∈ c.idxs ∧
        (if normalize ∧ mx > 0 then minPower * mx ≤ c.data p - mn else minPower ≤ c.data p) ∧
        (peak = true → ∀ q ∈ c.idxs, Neighbour p q → c.data q ≤ c.data p) := by
    intro p
    unfold thresholdIdxs
    cases peak with
    | true =>
      simp only [if_true, List.mem_filter, Bool.and_eq_true, decide_eq_true_eq, true_imp_iff]
      constructor
      · rintro ⟨a, b, d⟩
        refine ⟨a, (hthr p).mp d, ?_⟩
        intro q hq hn
        exact (hord p q).mp ((maxFilter_iff c _ p a).mp b q hq hn)
      · rintro ⟨a, b, d⟩
        refine ⟨a, (maxFilter_iff c _ p a).mpr ?_, (hthr p).mpr b⟩
        intro q hq hn
        exact (hord p q).mpr (d q hq hn)
    | false =>
      simp only [Bool.false_eq_true, if_false, List.mem_filter, decide_eq_true_eq, false_imp_iff, and_true]
      rw [hthr p]
  have hsub : (thresholdIdxs c minPower peak (thresholdData c normalize mx mn)).Sublist c.idxs := by
    unfold thresholdIdxs
    split <;> exact List.filter_sublist
  obtain ⟨xs, e, b⟩ := detections_ok t light c h
    (thresholdIdxs c minPower peak (thresholdData c normalize mx mn)) (by
      intro p hp
      obtain ⟨a, b, _⟩ := (hsel p).mp hp
      refine ⟨a, ?_⟩
      split at b
      · rename_i hn
        have : 0 < minPower * mx := mul_pos hmin hn.2
        linarith
      · linarith)
  refine ⟨mx, mn, _, xs, x1, x2, n1, n2, ?_, (idxs_nodup c).sublist hsub, hsub, b, hsel⟩
  unfold thresholdDetect
  rw [hmx, hmn, newCloud_ok c h]
  exact e

omit [Field K] [IsStrictOrderedRing K] in
theorem argmax_spec (d : Nat × Nat × Nat → K) (l : List (Nat × Nat × Nat)) (p : Nat × Nat × Nat)
    (h : argmax d l = some p) : p ∈ l ∧ ∀ q ∈ l, d q ≤ d p := by
  cases l with
  | nil => cases h
  | cons x l =>
    simp only [argmax, Option.some.injEq] at h
    subst h
    induction l generalizing x with
    | nil => simp
    | cons y l ih =>
      simp only [List.foldl_cons]
      split
      · rename_i hlt
        obtain ⟨h1, h2⟩ := ih y
        refine ⟨List.mem_cons_of_mem _ h1, ?_⟩
        intro q hq
        rcases List.mem_cons.mp hq with rfl | hq
        · exact hlt.le.trans (h2 y List.mem_cons_self)
        · exact h2 q hq
      · rename_i hlt
        obtain ⟨h1, h2⟩ := ih x
        refine ⟨?_, ?_⟩
        · rcases List.mem_cons.mp h1 with e | h1
          · rw [e]; exact List.mem_cons_self
          · exact List.mem_cons_of_mem _ (List.mem_cons_of_mem _ h1)
        · intro q hq
          rcases List.mem_cons.mp hq with rfl | hq
          · exact h2 q List.mem_cons_self
          · rcases List.mem_cons.mp hq with rfl | hq
            · exact (not_lt.mp hlt).trans (h2 x List.mem_cons_self)
            · exact h2 q (List.mem_cons_of_mem _ hq)

/-- **C41** (maximum): the detector reports nothing if no power is positive and otherwise one point with
the power of a largest bin, at the range and with the speed of this bin.  The direction is the one of
the bin with azimuth and zenith exchanged, so the claim holds for bins where both are equal, and fails
otherwise, see below. -/
theorem C41_max_partial (t : Trig K) (light : K) (c : Cube K) (h : Good c) :
    ∃ p ∈ c.idxs, (∀ q ∈ c.idxs, c.data q ≤ c.data p) ∧
      (c.data p = 0 → maxDetect t light c = .ok []) ∧
      (0 < c.data p → ∃ a0 a1 dop r x, c.angle[p.1]? = some [a0, a1] ∧ c.doppler[p.2.1]? = some dop ∧
        c.range[p.2.2]? = some r ∧ maxDetect t light c = .ok [x] ∧ x.power = c.data p ∧
        x.pos = scale r (normal t a0 a1) ∧ x.vel = scale (dop * light / c.fc) (normal t a0 a1) ∧
        (a0 = a1 → InBin t light c p x)) := by
  obtain ⟨p0, l0, hl0⟩ := idxs_ne c h
  obtain ⟨p, hp⟩ : ∃ p, argmax c.data c.idxs = some p := by rw [hl0]; exact ⟨_, rfl⟩
  obtain ⟨h1, h2⟩ := argmax_spec _ _ _ hp
  refine ⟨p, h1, h2, ?_, ?_⟩
  · intro h0
    unfold maxDetect
    rw [hp]
    dsimp only
    rw [newCloud_ok c h]
    dsimp only
    rw [if_pos h0.le]
  · intro hpos
    obtain ⟨i, j, k⟩ := p
    rw [mem_idxs] at h1
    obtain ⟨hi, hj, hk⟩ := h1
    obtain ⟨a0, a1, d, r, ea, ed, er⟩ := h.bins i j k hi hj hk
    refine ⟨a0, a1, d, r, ⟨scale r (normal t a0 a1), scale (d * light / c.fc) (normal t a0 a1),
      c.data (i, j, k)⟩, ea, ed, er, ?_, rfl, rfl, rfl, ?_⟩
    · unfold maxDetect
      rw [hp]
      dsimp only
      rw [newCloud_ok c h]
      dsimp only
      rw [if_neg (not_le.mpr hpos), ea]
      unfold velocityBin fromSpherical
      dsimp only
      rw [if_neg (not_le.mpr h.fc), ed]
      dsimp only
      rw [er]
      dsimp only
      rw [if_neg (not_le.mpr hpos)]
    · rintro rfl
      exact ⟨a0, a0, d, r, ea, ed, er, rfl, rfl, rfl⟩

/-- The real sine and cosine. -/
noncomputable def realTrig : Trig ℝ := ⟨Real.sin, Real.cos⟩

/-- A single bin at azimuth π/2 and zenith 0, i.e. straight up, in the range of 1 m. -/
noncomputable def upCube : Cube ℝ where
  na := 1
  nb := 1
  nc := 1
  data := fun _ => 1
  angle := [[Real.pi / 2, 0]]
  doppler := [0]
  range := [1]
  fc := 1

/-- **C41** fails for the maximum detector: a target straight up, at (0, 0, 1), is reported on the
horizontal axis, at (1, 0, 0). -/
theorem C41_max_direction_fails (light : ℝ) :
    ∃ x, maxDetect realTrig light upCube = .ok [x] ∧ x.pos = (1, 0, 0) ∧
      ∀ y, InBin realTrig light upCube (0, 0, 0) y → y.pos = (0, 0, 1) := by
  have h : Good upCube := by
    refine ⟨by decide, by decide, by decide, rfl, ?_, rfl, rfl, ⟨1, by simp [upCube], zero_le_one⟩,
      ?_, ?_⟩
    · intro r hr
      simp only [upCube, List.mem_singleton] at hr
      subst hr; rfl
    · simp [upCube]
    · intro p; simp [upCube]
  obtain ⟨p, hp, _, _, h3⟩ := C41_max_partial realTrig light upCube h
  obtain ⟨i, j, k⟩ := p
  rw [mem_idxs] at hp
  simp only [upCube, Nat.lt_one_iff] at hp
  obtain ⟨rfl, rfl, rfl⟩ := hp
  obtain ⟨a0, a1, dop, r, x, e1, e2, e3, e4, _, e6, _, _⟩ := h3 (by simp [upCube])
  simp only [upCube, List.getElem?_cons_zero, Option.some.injEq, List.cons.injEq, and_true] at e1 e2 e3
  obtain ⟨rfl, rfl⟩ := e1
  subst e2 e3
  refine ⟨x, e4, ?_, ?_⟩
  · rw [e6]
    simp [scale, normal, realTrig]
  · rintro y ⟨az, ze, d, r, f1, _, f3, f4, _⟩
    simp only [upCube, List.getElem?_cons_zero, Option.some.injEq, List.cons.injEq, and_true] at f1 f3
    obtain ⟨rfl, rfl⟩ := f1
    subst f3
    rw [f4]
    simp [realTrig]

/-- **C41** fails as a relative threshold: the documentation calls `min_power` relative to the largest
power, but the smallest is subtracted and not from the divisor, so with the threshold one not even the
largest bin is reported unless the smallest power is zero. -/
theorem C41_relative_fails (t : Trig K) (light : K) (c : Cube K) (h : Good c) (peak : Bool)
    (hpos : ∀ p ∈ c.idxs, 0 < c.data p) : thresholdDetect t light c 1 true peak = .ok [] := by
  obtain ⟨mx, mn, sel, xs, m1, m2, m3, m4, e, _, _, b, hs⟩ :=
    C41_threshold t light c h 1 one_pos true peak
  have : sel = [] := by
    rw [List.eq_nil_iff_forall_not_mem]
    intro p hp
    obtain ⟨a1, a2, _⟩ := (hs p).mp hp
    unfold Cube.values at m1 m2 m3
    obtain ⟨q, hq, rfl⟩ := List.mem_map.mp m1
    obtain ⟨q', hq', rfl⟩ := List.mem_map.mp m3
    rw [if_pos ⟨rfl, hpos q hq⟩] at a2
    have hle := m2 (c.data p) (List.mem_map.mpr ⟨p, a1, rfl⟩)
    have := hpos q' hq'
    linarith
  subst this
  cases b
  exact e

/-- **C41** fails for cubes without carrier frequency, the default of the constructor: as soon as there
is something to report, the detector raises. -/
theorem C41_carrier_fails (t : Trig K) (light : K) (c : Cube K) (p : Nat × Nat × Nat)
    (ps : List (Nat × Nat × Nat)) (hfc : c.fc = 0) (az ze : K) (ha : c.angle[p.1]? = some [az, ze]) :
    detections t light c (p :: ps) = .error .runtime := by
  unfold detections detection velocityBin
  rw [ha]
  dsimp only
  rw [if_pos hfc.le]

/-- Sine and cosine replaced by polynomials, to compute with. -/
def ratTrig : Trig ℚ := ⟨fun x => x, fun x => 1 - x⟩

example : Good demoCube := by
  refine ⟨by decide, by decide, by decide, rfl, ?_, rfl, rfl, ⟨0, by simp [demoCube], le_rfl⟩, ?_, ?_⟩
  · intro r hr
    simp only [demoCube, List.mem_cons, List.not_mem_nil, or_false] at hr
    rcases hr with rfl | rfl <;> rfl
  · decide
  · intro p
    simp only [demoCube]
    split
    · norm_num
    · split <;> norm_num

example : ((thresholdDetect ratTrig 1 demoCube (1/4) true true).toOption).map (fun l => l.map (·.power)) =
    some [4, 8] := by decide +kernel

end Verif.Radar
