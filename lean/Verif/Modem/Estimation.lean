import Verif.Modem.Pilot
import Mathlib.Algebra.Field.Basic
import Mathlib.Data.Rat.Cast.CharZero
import Mathlib.Data.List.MinMax
import Mathlib.Tactic.FieldSimp

/-!
# Least squares channel estimation on resource grids

`OrthogonalLeastSquaresChannelEstimation.estimate_channel`
(`hermespy/modem/waveforms/orthogonal/channel.py`) together with the frame's resource mask and the pilot
sequence of `hermespy/modem/waveforms/orthogonal/waveform.py` and `hermespy/modem/waveform.py`. `scipy`'s
`griddata` is a parameter, described by what its documentation promises.
-/

namespace Verif.Modem

/-- A cell of the frame's grid: word and subcarrier. -/
abbrev Cell := Nat × Nat

/-- Layer `t` of `OrthogonalWaveform.resource_mask`. A section wider than the waveform (`ValueError` in the
code) keeps its width here. `hermespy/modem/waveforms/orthogonal/waveform.py` 1194-1211. -/
def Wave.resourceMask (w : Wave α) (t : ElementType) : List (List Bool) :=
  w.structure_.flatMap fun s => (s.resourceMask w.numSubcarriers t).map fun row =>
    row ++ List.replicate (w.numSubcarriers - s.numSubcarriers w.numSubcarriers) false

/-- `np.where` on row `i` of a mask, starting at column `j`. -/
def whereRow (b : Bool) (i : Nat) : Nat → List Bool → List Cell
  | _, [] => []
  | j, x :: xs => if x = b then (i, j) :: whereRow b i (j + 1) xs else whereRow b i (j + 1) xs

/-- `np.where(mask)` (`b = true`) and `np.where(np.invert(mask))` (`b = false`) from row `i` on: the index
pairs of the selected cells, row by row. -/
def whereRows (b : Bool) : Nat → List (List Bool) → List Cell
  | _, [] => []
  | i, row :: rows => whereRow b i 0 row ++ whereRows b (i + 1) rows

/-- `grid[i, j]`. -/
def cellAt {K : Type} [Zero K] (grid : List (List K)) (c : Cell) : K := (grid.getD c.1 []).getD c.2 0

/-- `scipy.interpolate.griddata` on integer points: `linear` returns the barycentric weights of the stems
around a point, `none` (`nan`) outside of the stems' convex hull; `nearest` a stem closest to the point. -/
structure Griddata where
  linear : List Cell → Cell → Option (List (Cell × ℚ))
  nearest : List Cell → Cell → Cell

/-- Twice the signed area of a triangle. -/
def cross (a b c : Cell) : Int :=
  ((b.1 : Int) - a.1) * ((c.2 : Int) - a.2) - ((b.2 : Int) - a.2) * ((c.1 : Int) - a.1)

/-- All points lie on a line: the triangulation behind linear interpolation does not exist, Qhull raises a
`QhullError` (a `RuntimeError`). -/
def Flat (stems : List Cell) : Prop := ∀ a ∈ stems, ∀ b ∈ stems, ∀ c ∈ stems, cross a b c = 0

instance (stems : List Cell) : Decidable (Flat stems) := by unfold Flat; infer_instance

/-- Squared Euclidean distance of two cells. -/
def dist2 (a b : Cell) : Int := ((a.1 : Int) - b.1) ^ 2 + ((a.2 : Int) - b.2) ^ 2

/-- The channel estimate of a cell after linear interpolation; `none` is `nan`.
`hermespy/modem/waveforms/orthogonal/channel.py` 43-57. -/
def interpolated {K : Type} [Field K] (g : Griddata) (stems : List Cell) (values : List K) (c : Cell) :
    Option K :=
  match (stems.zip values).lookup c with
  | some v => some v
  | none => (g.linear stems c).map fun ws =>
      (ws.map fun p => (p.2 : K) * ((stems.zip values).lookup p.1).getD 0).sum

/-- `OrthogonalLeastSquaresChannelEstimation.estimate_channel` for a frame with the given mask of reference
cells and pilot sequence: the estimated states of the only pair of streams. The symbols themselves are
passed on unchanged. `hermespy/modem/waveforms/orthogonal/channel.py` 28-66. -/
def estimateChannel {K : Type} [Field K] (g : Griddata) (mask : List (List Bool))
    (pilot : Nat → Except PyErr (List K)) (streams : List (List (List K))) :
    Except PyErr (List (List K)) :=
  match streams with
  | [raw] =>
    if raw.map List.length ≠ mask.map List.length then .error .index
    else
      let stems := whereRows true 0 mask
      match pilot (stems.map (cellAt raw)).length with
      | .error e => .error e
      | .ok references =>
        let values := List.zipWith (· / ·) (stems.map (cellAt raw)) references
        let holes := whereRows false 0 mask
        if holes ≠ [] ∧ stems = [] then .error .value
        else if holes ≠ [] ∧ Flat stems then .error .runtime
        else
          let cells := (List.range mask.length).flatMap fun i =>
            (List.range (mask.getD i []).length).map fun j => (i, j)
          let known := cells.filter fun c => (interpolated g stems values c).isSome
          .ok ((List.range mask.length).map fun i => (List.range (mask.getD i []).length).map fun j =>
            (interpolated g stems values (i, j)).getD
              ((interpolated g stems values (g.nearest known (i, j))).getD 0))
  | _ => .error .notImplemented

/-! ### What is promised -/

/-- A reference cell of the frame, as configured. -/
def Wave.RefCell (w : Wave α) (c : Cell) : Prop :=
  ∃ u, w.types[c.1]? = some u ∧ u[c.2]? = some .reference

/-- A cell of the frame. -/
def Wave.InFrame (w : Wave α) (c : Cell) : Prop := c.1 < w.wordsPerFrame ∧ c.2 < w.numSubcarriers

/-- Barycentric coordinates of a cell with respect to cells satisfying `P`. -/
def Barycentric (P : Cell → Prop) (ws : List (Cell × ℚ)) (c : Cell) : Prop :=
  (∀ p ∈ ws, P p.1) ∧ (∀ p ∈ ws, 0 ≤ p.2) ∧ (ws.map (·.2)).sum = 1 ∧
    (ws.map fun p => p.2 * (p.1.1 : ℚ)).sum = c.1 ∧ (ws.map fun p => p.2 * (p.1.2 : ℚ)).sum = c.2

/-- A cell in the convex hull of the cells satisfying `P`. -/
def InHull (P : Cell → Prop) (c : Cell) : Prop := ∃ ws, Barycentric P ws c

/-- What `griddata` is documented to do. -/
structure Griddata.Sound (g : Griddata) : Prop where
  weights : ∀ stems c ws, ¬Flat stems → g.linear stems c = some ws → Barycentric (· ∈ stems) ws c
  hull : ∀ stems c, ¬Flat stems → g.linear stems c = none → ¬InHull (· ∈ stems) c
  nearest : ∀ stems c, stems ≠ [] → g.nearest stems c ∈ stems ∧
    ∀ s ∈ stems, dist2 c (g.nearest stems c) ≤ dist2 c s

/-- Interpolators as documented exist. -/
theorem exists_sound : ∃ g : Griddata, g.Sound := by
  classical
  refine ⟨⟨fun stems c => if h : InHull (· ∈ stems) c then some h.choose else none,
    fun stems c => (stems.argmin (dist2 c)).getD c⟩, ⟨?_, ?_, ?_⟩⟩
  · intro stems c ws _ h
    dsimp only at h
    split at h
    · next hh =>
      cases h
      exact hh.choose_spec
    · cases h
  · intro stems c _ h
    dsimp only at h
    split at h
    · cases h
    · next hh => exact hh
  · intro stems c h
    dsimp only
    cases ha : stems.argmin (dist2 c) with
    | none => exact absurd (List.argmin_eq_none.1 ha) h
    | some m =>
      rw [Option.getD_some]
      exact ⟨List.argmin_mem ha, fun s hs => List.le_of_mem_argmin hs ha⟩

/-! ### Lemmas -/

theorem Wave.resourceMask_eq (w : Wave α) (hfit : w.Fits) (t : ElementType) :
    w.resourceMask t = w.types.map (maskRow t w.numSubcarriers) := by
  unfold Wave.resourceMask Wave.types
  rw [List.map_flatMap]
  apply List.flatMap_congr
  intro s hs
  rw [s.resourceMask_eq, List.map_map]
  apply List.map_congr_left
  intro u hu
  have h1 := hfit.1 s hs
  have h2 := s.types_row_le w.numSubcarriers u hu
  simp only [Function.comp_apply, maskRow, List.append_assoc, ← List.replicate_add]
  congr 2
  omega

theorem mem_whereRow (b : Bool) (i j : Nat) (row : List Bool) (c : Cell) :
    c ∈ whereRow b i j row ↔ c.1 = i ∧ j ≤ c.2 ∧ row[c.2 - j]? = some b := by
  induction row generalizing j with
  | nil => simp [whereRow]
  | cons x xs ih =>
    have hstep : (c.1 = i ∧ j ≤ c.2 ∧ (x :: xs)[c.2 - j]? = some b) ↔
        (c = (i, j) ∧ x = b) ∨ (c.1 = i ∧ j + 1 ≤ c.2 ∧ xs[c.2 - (j + 1)]? = some b) := by
      obtain ⟨c1, c2⟩ := c
      simp only [Prod.mk.injEq]
      constructor
      · rintro ⟨rfl, h1, h2⟩
        by_cases h : c2 = j
        · subst h
          left
          simpa using h2
        · right
          refine ⟨rfl, by omega, ?_⟩
          rwa [show c2 - j = (c2 - (j + 1)) + 1 by omega, List.getElem?_cons_succ] at h2
      · rintro (⟨⟨rfl, rfl⟩, rfl⟩ | ⟨rfl, h1, h2⟩)
        · simp
        · refine ⟨rfl, by omega, ?_⟩
          rwa [show c2 - j = (c2 - (j + 1)) + 1 by omega, List.getElem?_cons_succ]
    rw [hstep, whereRow]
    split_ifs with h
    · rw [List.mem_cons, ih]
      simp [h]
    · rw [ih]
      simp [h]

theorem mem_whereRows (b : Bool) (i : Nat) (mask : List (List Bool)) (c : Cell) :
    c ∈ whereRows b i mask ↔
      i ≤ c.1 ∧ ∃ row, mask[c.1 - i]? = some row ∧ row[c.2]? = some b := by
  induction mask generalizing i with
  | nil => simp [whereRows]
  | cons m ms ih =>
    rw [whereRows, List.mem_append, mem_whereRow, ih]
    constructor
    · rintro (⟨rfl, _, h⟩ | ⟨h1, row, h2, h3⟩)
      · exact ⟨le_refl _, m, by simp, by simpa using h⟩
      · refine ⟨by omega, row, ?_, h3⟩
        rwa [show c.1 - i = (c.1 - (i + 1)) + 1 by omega, List.getElem?_cons_succ]
    · rintro ⟨h1, row, h2, h3⟩
      by_cases h : c.1 = i
      · left
        rw [h, Nat.sub_self, List.getElem?_cons_zero] at h2
        cases h2
        exact ⟨h, by omega, by simpa using h3⟩
      · right
        refine ⟨by omega, row, ?_, h3⟩
        rwa [show c.1 - i = (c.1 - (i + 1)) + 1 by omega, List.getElem?_cons_succ] at h2

theorem map_whereRow {K : Type} [Zero K] (i j : Nat) (row : List Bool) (x : List K)
    (hl : row.length = x.length) (f : Cell → K) (hf : ∀ k < x.length, f (i, j + k) = x.getD k 0) :
    (whereRow true i j row).map f = gather row x := by
  induction row generalizing x j with
  | nil => cases x <;> rfl
  | cons m ms ih =>
    cases x with
    | nil => simp at hl
    | cons y ys =>
      have ht := ih (j + 1) ys (by simpa using hl) fun k hk => by
        have := hf (k + 1) (by simpa using hk)
        rwa [show j + (k + 1) = j + 1 + k by omega, List.getD_cons_succ] at this
      have h0 := hf 0 (by simp)
      cases m with
      | true =>
        rw [whereRow, if_pos rfl, List.map_cons, gather, ht]
        congr 1
      | false =>
        rw [whereRow, if_neg (by simp), gather, ht]

theorem map_whereRows {K : Type} [Zero K] (i : Nat) (mask : List (List Bool)) (grid : List (List K))
    (hl : grid.map List.length = mask.map List.length) (f : Cell → K)
    (hf : ∀ k l, f (i + k, l) = (grid.getD k []).getD l 0) :
    (whereRows true i mask).map f = gatherRows mask grid := by
  induction mask generalizing grid i with
  | nil => cases grid <;> rfl
  | cons m ms ih =>
    cases grid with
    | nil => simp at hl
    | cons x xs =>
      simp only [List.map_cons, List.cons.injEq] at hl
      rw [whereRows, List.map_append, gatherRows,
        map_whereRow i 0 m x hl.1.symm f (fun k _ => by simpa using hf 0 (0 + k)),
        ih (i + 1) xs hl.2 fun k l => by
          have := hf (k + 1) l
          rwa [show i + (k + 1) = i + 1 + k by omega, List.getD_cons_succ] at this]

theorem lookup_zip_map {K : Type} (stems : List Cell) (v : Cell → K) (c : Cell) :
    (stems.zip (stems.map v)).lookup c = if c ∈ stems then some (v c) else none := by
  induction stems with
  | nil => simp
  | cons s ss ih =>
    rw [List.map_cons, List.zip_cons_cons, List.lookup_cons]
    by_cases h : c = s
    · subst h
      simp
    · rw [show (c == s) = false by simpa using h, ih]
      simp [h]

theorem expectedReferences_eq (w : Wave α) (ss : List (Section α)) (refs : List α)
    (hnp : ∀ s ∈ ss, ∀ e, s ≠ .pilot e)
    (hr : refs.length = (ss.map (·.numReferences w.numSubcarriers)).sum) :
    expectedReferences w ss refs = refs := by
  induction ss generalizing refs with
  | nil =>
    simp only [List.map_nil, List.sum_nil] at hr
    rw [List.length_eq_zero_iff.1 hr]
    rfl
  | cons s ss ih =>
    have hlen : (refs.drop (s.numReferences w.numSubcarriers)).length =
        (ss.map (·.numReferences w.numSubcarriers)).sum := by
      rw [List.length_drop, hr]
      simp
    have := ih (refs.drop (s.numReferences w.numSubcarriers)) (fun s hs => hnp s (by simp [hs])) hlen
    cases s with
    | pilot e => exact absurd rfl (hnp _ (by simp) e)
    | symbols a b c => rw [expectedReferences, this, List.take_append_drop]
                       all_goals simp
    | guard a b => rw [expectedReferences, this, List.take_append_drop]
                   all_goals simp

theorem sum_weights {K : Type} [Field K] [CharZero K] (P : Cell → Prop) (a b d : K) (c : Cell)
    (ws : List (Cell × ℚ)) (h : Barycentric P ws c) :
    (ws.map fun p => (p.2 : K) * (a + b * p.1.1 + d * p.1.2)).sum = a + b * c.1 + d * c.2 := by
  obtain ⟨_, _, h1, h2, h3⟩ := h
  have hc1 : ((ws.map (·.2)).sum : ℚ) = ((1 : ℚ)) := h1
  have e1 : (((ws.map (·.2)).sum : ℚ) : K) = 1 := by rw [hc1]; simp
  have e2 : (((ws.map fun p => p.2 * (p.1.1 : ℚ)).sum : ℚ) : K) = c.1 := by rw [h2]; simp
  have e3 : (((ws.map fun p => p.2 * (p.1.2 : ℚ)).sum : ℚ) : K) = c.2 := by rw [h3]; simp
  have key : ∀ l : List (Cell × ℚ),
      (l.map fun p => (p.2 : K) * (a + b * p.1.1 + d * p.1.2)).sum =
        a * (((l.map (·.2)).sum : ℚ) : K) + b * (((l.map fun p => p.2 * (p.1.1 : ℚ)).sum : ℚ) : K) +
          d * (((l.map fun p => p.2 * (p.1.2 : ℚ)).sum : ℚ) : K) := by
    intro l
    induction l with
    | nil => simp
    | cons p l ih =>
      simp only [List.map_cons, List.sum_cons, ih]
      push_cast
      ring
  rw [key, e1, e2, e3]
  ring

theorem cellAt_table {K : Type} [Zero K] (mask : List (List Bool)) (f : Cell → K) (c : Cell)
    (h1 : c.1 < mask.length) (h2 : c.2 < (mask.getD c.1 []).length) :
    cellAt ((List.range mask.length).map fun i => (List.range (mask.getD i []).length).map fun j =>
      f (i, j)) c = f c := by
  have h2' : c.2 < mask[c.1].length := by simpa [List.getD, h1] using h2
  simp [cellAt, List.getD, h1, h2']

/-- What the estimate is, given the values found at the reference cells. -/
theorem estimate_core {K : Type} [Field K] (g : Griddata) (hg : g.Sound) (mask : List (List Bool))
    (pilot : Nat → Except PyErr (List K)) (raw : List (List K)) (references : List K) (H : Cell → K)
    (hs : raw.map List.length = mask.map List.length)
    (hp : pilot (whereRows true 0 mask).length = .ok references)
    (hv : List.zipWith (· / ·) ((whereRows true 0 mask).map (cellAt raw)) references =
      (whereRows true 0 mask).map H)
    (hflat : whereRows false 0 mask = [] ∨ ¬Flat (whereRows true 0 mask)) :
    ∃ est, estimateChannel g mask pilot [raw] = .ok est ∧
      est.map List.length = mask.map List.length ∧
      (∀ c ∈ whereRows true 0 mask, cellAt est c = H c) ∧
      (∀ c ∈ whereRows false 0 mask,
        (∃ ws, Barycentric (· ∈ whereRows true 0 mask) ws c ∧
          cellAt est c = (ws.map fun p => (p.2 : K) * H p.1).sum) ∨
        (¬InHull (· ∈ whereRows true 0 mask) c ∧
          ∃ n, (n ∈ whereRows true 0 mask ∨ n ∈ whereRows false 0 mask) ∧
            InHull (· ∈ whereRows true 0 mask) n ∧ cellAt est c = cellAt est n ∧
            ∀ n', (n' ∈ whereRows true 0 mask ∨ n' ∈ whereRows false 0 mask) →
              InHull (· ∈ whereRows true 0 mask) n' → dist2 c n ≤ dist2 c n')) := by
  set stems := whereRows true 0 mask with hstems
  set holes := whereRows false 0 mask with hholes
  set cells := (List.range mask.length).flatMap fun i =>
    (List.range (mask.getD i []).length).map fun j => (i, j) with hcells
  have hmem : ∀ c, c ∈ cells ↔ c ∈ stems ∨ c ∈ holes := by
    intro c
    rw [hstems, hholes, mem_whereRows, mem_whereRows, hcells]
    simp only [List.mem_flatMap, List.mem_range, List.mem_map, Nat.zero_le, true_and, Nat.sub_zero]
    constructor
    · rintro ⟨i, hi, j, hj, rfl⟩
      have hi' : mask[i]? = some mask[i] := List.getElem?_eq_getElem hi
      rw [List.getD, hi', Option.getD_some] at hj
      cases hb : (mask[i])[j] with
      | true => exact .inl ⟨_, hi', by rw [List.getElem?_eq_getElem hj, hb]⟩
      | false => exact .inr ⟨_, hi', by rw [List.getElem?_eq_getElem hj, hb]⟩
    · rintro (⟨row, h1, h2⟩ | ⟨row, h1, h2⟩)
      all_goals
        refine ⟨c.1, (List.getElem?_eq_some_iff.1 h1).1, c.2, ?_, rfl⟩
        rw [List.getD, h1, Option.getD_some]
        exact (List.getElem?_eq_some_iff.1 h2).1
  have hvalid : ∀ c ∈ cells, c.1 < mask.length ∧ c.2 < (mask.getD c.1 []).length := by
    intro c hc
    rw [hcells] at hc
    simp only [List.mem_flatMap, List.mem_range, List.mem_map] at hc
    obtain ⟨i, hi, j, hj, rfl⟩ := hc
    exact ⟨hi, hj⟩
  have hdisj : ∀ c ∈ holes, c ∉ stems := by
    intro c h1 h2
    rw [hholes, mem_whereRows] at h1
    rw [hstems, mem_whereRows] at h2
    obtain ⟨_, r1, a1, b1⟩ := h1
    obtain ⟨_, r2, a2, b2⟩ := h2
    rw [a1] at a2
    cases a2
    rw [b1] at b2
    cases b2
  set I := interpolated g stems (stems.map H) with hI
  have hstem : ∀ c ∈ stems, I c = some (H c) := by
    intro c hc
    rw [hI, interpolated, lookup_zip_map, if_pos hc]
  have hhole : ∀ c ∉ stems, I c = (g.linear stems c).map fun ws =>
      (ws.map fun p => (p.2 : K) * (if p.1 ∈ stems then some (H p.1) else none).getD 0).sum := by
    intro c hc
    rw [hI, interpolated, lookup_zip_map, if_neg hc]
    simp only [lookup_zip_map]
  set known := cells.filter fun c => (I c).isSome with hknown
  set table := (List.range mask.length).map fun i => (List.range (mask.getD i []).length).map fun j =>
    (I (i, j)).getD ((I (g.nearest known (i, j))).getD 0) with htable
  have hest : ∀ c ∈ cells, cellAt table c = (I c).getD ((I (g.nearest known c)).getD 0) := by
    intro c hc
    exact cellAt_table mask (fun c => (I c).getD ((I (g.nearest known c)).getD 0)) c (hvalid c hc).1
      (hvalid c hc).2
  refine ⟨table, ?_, ?_, ?_, ?_⟩
  · have hp' : pilot ((whereRows true 0 mask).map (cellAt raw)).length = .ok references := by
      rw [List.length_map]
      exact hp
    have hne : holes ≠ [] → stems ≠ [] ∧ ¬Flat stems := by
      intro h
      have hf := hflat.resolve_left h
      refine ⟨?_, hf⟩
      intro he
      apply hf
      rw [he]
      intro a ha
      cases ha
    unfold estimateChannel
    simp only
    rw [if_neg (by simpa using hs), hp']
    simp only
    rw [hv, if_neg (fun h => (hne h.1).1 h.2), if_neg (fun h => (hne h.1).2 h.2)]
  · rw [htable, List.map_map]
    apply List.ext_getElem
    · simp
    · intro i h1 h2
      simp only [List.length_map] at h2
      simp [h2]
  · intro c hc
    rw [hest c ((hmem c).2 (.inl hc)), hstem c hc, Option.getD_some]
  · intro c hc
    have hcc := (hmem c).2 (.inr hc)
    have hf : ¬Flat stems := hflat.resolve_left (List.ne_nil_of_mem hc)
    have hknown_hull : ∀ n ∈ cells, ((I n).isSome = true ↔ InHull (· ∈ stems) n) := by
      intro n hn
      by_cases hns : n ∈ stems
      · rw [hstem n hns]
        refine iff_of_true rfl ⟨[(n, 1)], ?_, ?_, ?_, ?_, ?_⟩
        · simpa using hns
        · simp
        · simp
        · simp
        · simp
      · rw [hhole n hns, Option.isSome_map]
        cases hl : g.linear stems n with
        | none => exact iff_of_false (by simp) (hg.hull stems n hf hl)
        | some ws => exact iff_of_true rfl ⟨ws, hg.weights stems n ws hf hl⟩
    cases hl : g.linear stems c with
    | some ws =>
      left
      have hb := hg.weights stems c ws hf hl
      refine ⟨ws, hb, ?_⟩
      rw [hest c hcc, hhole c (hdisj c hc), hl, Option.map_some, Option.getD_some]
      congr 1
      apply List.map_congr_left
      intro p hp'
      rw [if_pos (hb.1 p hp'), Option.getD_some]
    | none =>
      right
      refine ⟨hg.hull stems c hf hl, g.nearest known c, ?_⟩
      have hex : known ≠ [] := by
        intro he
        have : stems ≠ [] := by
          intro hs'
          apply hf
          rw [hs']
          intro a ha
          cases ha
        obtain ⟨s, hs'⟩ := List.exists_mem_of_ne_nil _ this
        have hk : s ∈ known := by
          rw [hknown, List.mem_filter]
          exact ⟨(hmem s).2 (.inl hs'), by rw [hstem s hs']; rfl⟩
        rw [he] at hk
        cases hk
      obtain ⟨n1, n2⟩ := hg.nearest known c hex
      have n1' := n1
      rw [hknown, List.mem_filter] at n1'
      refine ⟨(hmem _).1 n1'.1, (hknown_hull _ n1'.1).1 n1'.2, ?_, ?_⟩
      · rw [hest c hcc, hhole c (hdisj c hc), hl, Option.map_none, Option.getD_none, hest _ n1'.1]
        obtain ⟨v, hv'⟩ := Option.isSome_iff_exists.1 n1'.2
        rw [hv', Option.getD_some, Option.getD_some]
      · intro n' hn' hh
        apply n2
        rw [hknown, List.mem_filter]
        exact ⟨(hmem n').2 hn', (hknown_hull n' ((hmem n').2 hn')).2 hh⟩

theorem maskRow_get (t : ElementType) (N : Nat) (u : List ElementType) (j : Nat) :
    (maskRow t N u)[j]? = some true ↔ u[j]? = some t := by
  unfold maskRow
  by_cases h : j < u.length
  · rw [List.getElem?_append_left (by simpa using h), List.getElem?_map,
      List.getElem?_eq_getElem h]
    simp
  · rw [List.getElem?_append_right (by simpa using h), List.getElem?_replicate,
      List.getElem?_eq_none (by omega)]
    split <;> simp

theorem types_row_le_frame (w : Wave α) (hfit : w.Fits) : ∀ u ∈ w.types, u.length ≤ w.numSubcarriers := by
  intro u hu
  rw [Wave.types, List.mem_flatMap] at hu
  obtain ⟨s, hs, hu⟩ := hu
  exact le_trans (s.types_row_le _ u hu) (hfit.1 s hs)

theorem types_length_frame (w : Wave α) : w.types.length = w.wordsPerFrame := by
  rw [Wave.types, List.length_flatMap, w.sums.2.2]
  congr 1
  apply List.map_congr_left
  intro s _
  exact s.types_length _

theorem mem_stems (w : Wave α) (hfit : w.Fits) (c : Cell) :
    c ∈ whereRows true 0 (w.resourceMask .reference) ↔ w.RefCell c := by
  rw [mem_whereRows, w.resourceMask_eq hfit, Wave.RefCell]
  simp only [Nat.zero_le, true_and, Nat.sub_zero, List.getElem?_map, Option.map_eq_some_iff]
  constructor
  · rintro ⟨row, ⟨u, h1, rfl⟩, h2⟩
    exact ⟨u, h1, (maskRow_get _ _ _ _).1 h2⟩
  · rintro ⟨u, h1, h2⟩
    exact ⟨_, ⟨u, h1, rfl⟩, (maskRow_get _ _ _ _).2 h2⟩

theorem maskRow_length (t : ElementType) (N : Nat) (u : List ElementType) (h : u.length ≤ N) :
    (maskRow t N u).length = N := by
  rw [maskRow, List.length_append, List.length_map, List.length_replicate]
  omega

theorem mem_holes (w : Wave α) (hfit : w.Fits) (c : Cell) :
    c ∈ whereRows false 0 (w.resourceMask .reference) ↔ w.InFrame c ∧ ¬w.RefCell c := by
  rw [mem_whereRows, w.resourceMask_eq hfit, Wave.InFrame, Wave.RefCell, ← types_length_frame]
  simp only [Nat.zero_le, true_and, Nat.sub_zero, List.getElem?_map, Option.map_eq_some_iff]
  constructor
  · rintro ⟨row, ⟨u, h1, rfl⟩, h2⟩
    have hu := types_row_le_frame w hfit u (List.mem_of_getElem? h1)
    refine ⟨⟨(List.getElem?_eq_some_iff.1 h1).1, ?_⟩, ?_⟩
    · rw [← maskRow_length .reference w.numSubcarriers u hu]
      exact (List.getElem?_eq_some_iff.1 h2).1
    · rintro ⟨u', h1', h3⟩
      rw [h1] at h1'
      cases h1'
      rw [← maskRow_get .reference w.numSubcarriers, h2] at h3
      simp at h3
  · rintro ⟨⟨h1, h2⟩, h3⟩
    have hu := types_row_le_frame w hfit (w.types[c.1]) (List.getElem_mem h1)
    refine ⟨_, ⟨w.types[c.1], List.getElem?_eq_getElem h1, rfl⟩, ?_⟩
    have hlt : c.2 < (maskRow .reference w.numSubcarriers w.types[c.1]).length := by
      rw [maskRow_length _ _ _ hu]; exact h2
    rw [List.getElem?_eq_getElem hlt]
    cases hb : (maskRow .reference w.numSubcarriers w.types[c.1])[c.2] with
    | false => rfl
    | true =>
      exfalso
      apply h3
      refine ⟨_, List.getElem?_eq_getElem h1, ?_⟩
      rw [← maskRow_get .reference w.numSubcarriers, List.getElem?_eq_getElem hlt, hb]

/-- The received grid is the transmitted grid with every cell weighted by the channel at that cell. -/
def FadedBy {K : Type} [Field K] (H : Cell → K) (grid raw : List (List K)) : Prop :=
  raw.map List.length = grid.map List.length ∧ ∀ c, cellAt raw c = H c * cellAt grid c

/-- Either every cell is a reference, or the reference cells do not all lie on one line. -/
def Wave.Spread (w : Wave α) : Prop :=
  (∀ c, w.InFrame c → w.RefCell c) ∨
    ∃ a b c, w.RefCell a ∧ w.RefCell b ∧ w.RefCell c ∧ cross a b c ≠ 0

/-! ### C65 -/

/-- C65 (partial), any channel: on frames without pilot sections in the grid, whose reference cells are spread
out, for every data, every non-vanishing pilot sequence and every channel weighting the cells of the grid,
the estimate is exact on the reference cells; on the other cells in their convex hull it is an average of the
channel at reference cells, with barycentric weights; elsewhere it is the estimate at a nearest cell of the
hull. Missing: frames with pilot sections and collinear references, for which the estimator fails
(`C65_pilot_fails`, `C65_collinear_fails`). -/
theorem C65_estimate_partial {K : Type} [Field K] (w : Wave K) (hfit : w.Fits)
    (hnp : ∀ s ∈ w.structure_, ∀ e, s ≠ .pilot e) (hspread : w.Spread)
    (sequence : List K) (h0 : sequence ≠ []) (hz : ∀ x ∈ sequence, x ≠ 0) (rep : Bool)
    (hrep : rep = true ∨ w.referencesPerFrame ≤ sequence.length) (data : List K)
    (hd : data.length = w.numDataSymbols) (g : Griddata) (hg : g.Sound) :
    ∃ refs grid, pilotSymbols sequence rep w.referencesPerFrame = .ok refs ∧
      w.place data refs = .ok grid ∧
      ∀ H raw, FadedBy H grid raw → ∃ est,
        estimateChannel g (w.resourceMask .reference) (pilotSymbols sequence rep) [raw] = .ok est ∧
        est.map List.length = grid.map List.length ∧
        (∀ c, w.RefCell c → cellAt est c = H c) ∧
        ∀ c, w.InFrame c → ¬w.RefCell c →
          (∃ ws, Barycentric w.RefCell ws c ∧
            cellAt est c = (ws.map fun p => (p.2 : K) * H p.1).sum) ∨
          (¬InHull w.RefCell c ∧ ∃ n, w.InFrame n ∧ InHull w.RefCell n ∧
            cellAt est c = cellAt est n ∧
            ∀ n', w.InFrame n' → InHull w.RefCell n' → dist2 c n ≤ dist2 c n') := by
  obtain ⟨refs, hr1, hr2, hr3⟩ := (C59_pilot_symbols sequence h0 rep w.referencesPerFrame).2 hrep
  obtain ⟨grid, p1, p2, p3, _, p5, _⟩ := C55_place w hfit data refs hd hr2
  refine ⟨refs, grid, hr1, p1, ?_⟩
  intro H raw hraw
  have hrefs : ∀ x ∈ refs, x ≠ 0 := by
    intro x hx
    obtain ⟨i, hi, rfl⟩ := List.mem_iff_getElem.1 hx
    have := hr3 i (by omega)
    rw [List.getElem?_eq_getElem hi] at this
    exact hz _ (List.mem_of_getElem? this.symm)
  rw [expectedReferences_eq w w.structure_ refs hnp (by rw [hr2, w.sums.2.1])] at p5
  set mask := w.resourceMask .reference with hmask
  have hmaskl : grid.map List.length = mask.map List.length := by
    rw [hmask, w.resourceMask_eq hfit, List.map_map]
    have e1 : grid.map List.length = List.replicate w.wordsPerFrame w.numSubcarriers := by
      rw [List.eq_replicate_iff]
      refine ⟨by simpa using p2, ?_⟩
      intro b hb
      obtain ⟨row, hrow, rfl⟩ := List.mem_map.1 hb
      exact p3 row hrow
    rw [e1, eq_comm, List.eq_replicate_iff]
    refine ⟨by simpa using types_length_frame w, ?_⟩
    intro b hb
    obtain ⟨u, hu, rfl⟩ := List.mem_map.1 hb
    exact maskRow_length _ _ _ (types_row_le_frame w hfit u hu)
  have hgr : (whereRows true 0 mask).map (cellAt grid) = refs := by
    rw [map_whereRows 0 mask grid hmaskl (cellAt grid) (fun k l => by simp [cellAt]), hmask,
      w.resourceMask_eq hfit, gatherRows_eq, p5]
  have hlen : (whereRows true 0 mask).length = w.referencesPerFrame := by
    rw [← hr2, ← hgr, List.length_map]
  have hv : List.zipWith (· / ·) ((whereRows true 0 mask).map (cellAt raw)) refs =
      (whereRows true 0 mask).map H := by
    rw [← hgr, List.zipWith_map, List.zipWith_self]
    apply List.map_congr_left
    intro c hc
    rw [hraw.2 c]
    have : cellAt grid c ≠ 0 := hrefs _ (by rw [← hgr]; exact List.mem_map_of_mem hc)
    field_simp
  have hiff : ∀ c, c ∈ whereRows true 0 mask ↔ w.RefCell c := fun c => mem_stems w hfit c
  have hiff2 : ∀ c, c ∈ whereRows false 0 mask ↔ w.InFrame c ∧ ¬w.RefCell c :=
    fun c => mem_holes w hfit c
  have hin : ∀ c, w.RefCell c → w.InFrame c := by
    rintro c ⟨u, h1, h2⟩
    refine ⟨?_, ?_⟩
    · rw [← types_length_frame]
      exact (List.getElem?_eq_some_iff.1 h1).1
    · exact lt_of_lt_of_le (List.getElem?_eq_some_iff.1 h2).1
        (types_row_le_frame w hfit u (List.mem_of_getElem? h1))
  have hflat : whereRows false 0 mask = [] ∨ ¬Flat (whereRows true 0 mask) := by
    rcases hspread with h | ⟨a, b, c, ha, hb, hc, hx⟩
    · left
      rw [List.eq_nil_iff_forall_not_mem]
      intro c hc
      exact ((hiff2 c).1 hc).2 (h c ((hiff2 c).1 hc).1)
    · right
      intro hf
      exact hx (hf a ((hiff a).2 ha) b ((hiff b).2 hb) c ((hiff c).2 hc))
  obtain ⟨est, e1, e2, e3, e4⟩ := estimate_core g hg mask (pilotSymbols sequence rep) raw refs H
    (by rw [hraw.1, hmaskl]) (by rw [hlen]; exact hr1) hv hflat
  have hfun : (fun c => c ∈ whereRows true 0 mask) = w.RefCell := funext fun c => propext (hiff c)
  rw [hfun] at e4
  refine ⟨est, e1, by rw [e2, hmaskl], fun c hc => e3 c ((hiff c).2 hc), ?_⟩
  intro c hc hnr
  have hor : ∀ n, (n ∈ whereRows true 0 mask ∨ n ∈ whereRows false 0 mask) ↔ w.InFrame n := by
    intro n
    rw [hiff, hiff2]
    constructor
    · rintro (h | h)
      · exact hin n h
      · exact h.1
    · intro h
      by_cases hr : w.RefCell n
      · exact .inl hr
      · exact .inr ⟨h, hr⟩
  rcases e4 c ((hiff2 c).2 ⟨hc, hnr⟩) with h | ⟨h1, n, h2, h3, h4, h5⟩
  · exact .inl h
  · exact .inr ⟨h1, n, (hor n).1 h2, h3, h4, fun n' a b => h5 n' ((hor n').2 a) b⟩

/-- C65 (partial), affine channels: if the channel changes linearly over words and subcarriers, the estimate
is exact on every cell in the convex hull of the reference cells. Missing: as in `C65_estimate_partial`. -/
theorem C65_affine_partial {K : Type} [Field K] [CharZero K] (w : Wave K) (hfit : w.Fits)
    (hnp : ∀ s ∈ w.structure_, ∀ e, s ≠ .pilot e) (hspread : w.Spread)
    (sequence : List K) (h0 : sequence ≠ []) (hz : ∀ x ∈ sequence, x ≠ 0) (rep : Bool)
    (hrep : rep = true ∨ w.referencesPerFrame ≤ sequence.length) (data : List K)
    (hd : data.length = w.numDataSymbols) (g : Griddata) (hg : g.Sound) (a b d : K) :
    ∃ refs grid, pilotSymbols sequence rep w.referencesPerFrame = .ok refs ∧
      w.place data refs = .ok grid ∧
      ∀ raw, FadedBy (fun c => a + b * c.1 + d * c.2) grid raw → ∃ est,
        estimateChannel g (w.resourceMask .reference) (pilotSymbols sequence rep) [raw] = .ok est ∧
        ∀ c, w.InFrame c → InHull w.RefCell c → cellAt est c = a + b * c.1 + d * c.2 := by
  obtain ⟨refs, grid, h1, h2, h3⟩ := C65_estimate_partial w hfit hnp hspread sequence h0 hz rep hrep
    data hd g hg
  refine ⟨refs, grid, h1, h2, ?_⟩
  intro raw hraw
  obtain ⟨est, e1, _, e3, e4⟩ := h3 _ raw hraw
  refine ⟨est, e1, ?_⟩
  intro c hc hh
  by_cases hr : w.RefCell c
  · exact e3 c hr
  · rcases e4 c hc hr with ⟨ws, k1, k2⟩ | ⟨k1, _⟩
    · rw [k2]
      exact sum_weights w.RefCell a b d c ws k1
    · exact absurd hh k1

theorem cellsOf_zipWith {K : Type} [Field K] (t : ElementType) (u : List ElementType)
    (x y z : List K) (h : y.length = x.length) (hz : z = List.zipWith (· / ·) x y) :
    List.zipWith (· / ·) (cellsOf t u x) (cellsOf t u y) = cellsOf t u z := by
  subst hz
  induction u generalizing x y with
  | nil => cases x <;> cases y <;> rfl
  | cons a u ih =>
    cases x with
    | nil => cases y <;> rfl
    | cons p x =>
      cases y with
      | nil => simp at h
      | cons q y =>
        have := ih x y (by simpa using h)
        simp only [List.zipWith_cons_cons, cellsOf]
        split
        · rw [List.zipWith_cons_cons, this]
        · exact this

theorem cellsOfGrid_zipWith {K : Type} [Field K] (t : ElementType) (us : List (List ElementType))
    (x y : List (List K)) (h : y.map List.length = x.map List.length) :
    List.zipWith (· / ·) (cellsOfGrid t us x) (cellsOfGrid t us y) =
      cellsOfGrid t us (List.zipWith (List.zipWith (· / ·)) x y) := by
  have hlen : ∀ (u : List ElementType) (a b : List K), b.length = a.length →
      (cellsOf t u a).length = (cellsOf t u b).length := by
    intro u
    induction u with
    | nil => intro a b _; cases a <;> cases b <;> rfl
    | cons v u ih =>
      intro a b hab
      cases a with
      | nil =>
        cases b with
        | nil => rfl
        | cons => simp at hab
      | cons p a =>
        cases b with
        | nil => simp at hab
        | cons q b =>
          have := ih a b (by simpa using hab)
          simp only [cellsOf]
          split
          · simp [this]
          · exact this
  induction us generalizing x y with
  | nil => cases x <;> cases y <;> rfl
  | cons u us ih =>
    cases x with
    | nil => cases y <;> rfl
    | cons p x =>
      cases y with
      | nil => simp at h
      | cons q y =>
        simp only [List.map_cons, List.cons.injEq] at h
        rw [List.zipWith_cons_cons, cellsOfGrid, cellsOfGrid, cellsOfGrid,
          List.zipWith_append (hlen u p q h.1), ih x y h.2, cellsOf_zipWith t u p q _ h.1 rfl]

theorem grid_ext {K : Type} [Zero K] (x y : List (List K)) (hl : x.map List.length = y.map List.length)
    (h : ∀ i j, i < x.length → j < (x.getD i []).length → cellAt x (i, j) = cellAt y (i, j)) :
    x = y := by
  have hlen : x.length = y.length := by simpa using congrArg List.length hl
  apply List.ext_getElem hlen
  intro i h1 h2
  have hrow : (x[i]).length = (y[i]).length := by
    have := congrArg (fun l => l[i]?) hl
    simpa [h1, h2] using this
  apply List.ext_getElem hrow
  intro j h3 h4
  have := h i j h1 (by simpa [List.getD, h1] using h3)
  simpa [cellAt, List.getD, h1, h2, h3, h4] using this

/-- C65 (partial), flat channels: if all cells are weighted by the same factor, the estimate is that factor on
every cell of the frame, and zero-forcing equalization of the picked symbols (`raw / states`) returns exactly
the transmitted data symbols. Missing: as in `C65_estimate_partial`. -/
theorem C65_flat_partial {K : Type} [Field K] [CharZero K] (w : Wave K) (hfit : w.Fits)
    (hnp : ∀ s ∈ w.structure_, ∀ e, s ≠ .pilot e) (hspread : w.Spread)
    (sequence : List K) (h0 : sequence ≠ []) (hz : ∀ x ∈ sequence, x ≠ 0) (rep : Bool)
    (hrep : rep = true ∨ w.referencesPerFrame ≤ sequence.length) (data : List K)
    (hd : data.length = w.numDataSymbols) (g : Griddata) (hg : g.Sound) (h : K) (hh : h ≠ 0) :
    ∃ refs grid, pilotSymbols sequence rep w.referencesPerFrame = .ok refs ∧
      w.place data refs = .ok grid ∧
      ∀ raw, FadedBy (fun _ => h) grid raw → ∃ est,
        estimateChannel g (w.resourceMask .reference) (pilotSymbols sequence rep) [raw] = .ok est ∧
        (∀ c, w.InFrame c → cellAt est c = h) ∧
        ∃ picked states, w.pickStated [raw] [[est]] = .ok ([picked], [[states]]) ∧
          List.zipWith (· / ·) picked states = data := by
  obtain ⟨refs, grid, h1, h2, h3⟩ := C65_estimate_partial w hfit hnp hspread sequence h0 hz rep hrep
    data hd g hg
  refine ⟨refs, grid, h1, h2, ?_⟩
  intro raw hraw
  obtain ⟨est, e1, e2, e3, e4⟩ := h3 _ raw hraw
  have hsum : ∀ c ws, Barycentric w.RefCell ws c → (ws.map fun p => (p.2 : K) * h).sum = h := by
    intro c ws hb
    have := sum_weights w.RefCell h 0 0 c ws hb
    simpa using this
  have hflat : ∀ c, w.InFrame c → InHull w.RefCell c → cellAt est c = h := by
    intro c hc hhull
    by_cases hr : w.RefCell c
    · exact e3 c hr
    · rcases e4 c hc hr with ⟨ws, k1, k2⟩ | ⟨k1, _⟩
      · rw [k2, hsum c ws k1]
      · exact absurd hhull k1
  have hall : ∀ c, w.InFrame c → cellAt est c = h := by
    intro c hc
    by_cases hr : w.RefCell c
    · exact e3 c hr
    · rcases e4 c hc hr with ⟨ws, k1, k2⟩ | ⟨_, n, k2, k3, k4, _⟩
      · rw [k2, hsum c ws k1]
      · rw [k4, hflat n k2 k3]
  obtain ⟨refs', hr1, hr2, _⟩ := (C59_pilot_symbols sequence h0 rep w.referencesPerFrame).2 hrep
  obtain rfl : refs' = refs := by rw [h1] at hr1; exact (Except.ok.inj hr1).symm
  obtain ⟨grid', p1, p2, p3, p4, _⟩ := C55_place w hfit data refs' hd hr2
  obtain rfl : grid' = grid := by rw [h2] at p1; exact (Except.ok.inj p1).symm
  have hshape : ∀ g' : List (List K), g'.map List.length = grid'.map List.length →
      g'.length = w.wordsPerFrame ∧ ∀ row ∈ g', row.length = w.numSubcarriers := by
    intro g' hg'
    have hl : g'.length = grid'.length := by simpa using congrArg List.length hg'
    refine ⟨by omega, ?_⟩
    intro row hrow
    have : row.length ∈ grid'.map List.length := by rw [← hg']; exact List.mem_map_of_mem hrow
    obtain ⟨r, hr, hr'⟩ := List.mem_map.1 this
    rw [← hr', p3 r hr]
  refine ⟨est, e1, hall, cellsOfGrid .data w.types raw, cellsOfGrid .data w.types est, ?_, ?_⟩
  · have := C55_stated w hfit [raw] [[est]]
      (by intro g' hg'; rw [List.mem_singleton.1 hg']; exact hshape raw hraw.1)
      (by
        intro rx hrx g' hg'
        rw [List.mem_singleton.1 hrx] at hg'
        rw [List.mem_singleton.1 hg']
        exact hshape est e2)
    simpa using this
  · have hlens : est.map List.length = raw.map List.length := by rw [e2, hraw.1]
    rw [cellsOfGrid_zipWith .data w.types raw est hlens]
    have : List.zipWith (List.zipWith (· / ·)) raw est = grid' := by
      have hl1 : raw.length = est.length := by simpa using (congrArg List.length hlens).symm
      have hrows := (hshape raw hraw.1).2
      have erows := (hshape est e2).2
      apply grid_ext
      · rw [← hraw.1]
        apply List.ext_getElem
        · simp [hl1]
        · intro i a b
          simp only [List.length_map, List.length_zipWith] at a b
          simp only [List.getElem_map, List.getElem_zipWith, List.length_zipWith]
          rw [hrows _ (List.getElem_mem _), erows _ (List.getElem_mem _)]
          exact min_self _
      · intro i j hi hj
        simp only [List.length_zipWith] at hi
        have hi1 : i < raw.length := by omega
        have hi2 : i < est.length := by omega
        have hj1 : j < (raw[i]).length ∧ j < (est[i]).length := by
          simpa [List.getD, hi1, hi2, List.getElem?_zipWith] using hj
        have hc : w.InFrame (i, j) :=
          ⟨by rw [← (hshape raw hraw.1).1]; exact hi1,
            by rw [← hrows _ (List.getElem_mem hi1)]; exact hj1.1⟩
        have v1 := hall (i, j) hc
        have v2 := hraw.2 (i, j)
        have v3 : cellAt (List.zipWith (List.zipWith (· / ·)) raw est) (i, j) =
            cellAt raw (i, j) / cellAt est (i, j) := by
          simp [cellAt, List.getD, hi1, hi2, hj1.1, hj1.2]
        rw [v3, v1, v2]
        field_simp
    rw [this, p4]

/-- C65, several streams: any number of streams other than one is refused. -/
theorem C65_streams {K : Type} [Field K] (g : Griddata) (mask : List (List Bool))
    (pilot : Nat → Except PyErr (List K)) (streams : List (List (List K))) (h : streams.length ≠ 1) :
    estimateChannel g mask pilot streams = .error .notImplemented := by
  match streams with
  | [] => rfl
  | [_] => simp at h
  | _ :: _ :: _ => rfl

/-- C65 is false for collinear references: if the reference cells of a frame lie on one line (a single
reference word, a single reference subcarrier) and there are other cells, then no reception whatsoever is
estimated; linear interpolation raises. Without reference cells it raises as well. -/
theorem C65_collinear_fails {K : Type} [Field K] (w : Wave K) (hfit : w.Fits) (hspread : ¬w.Spread)
    (sequence : List K) (h0 : sequence ≠ []) (raw : List (List K))
    (hl : raw.length = w.wordsPerFrame) (hr : ∀ row ∈ raw, row.length = w.numSubcarriers)
    (g : Griddata) :
    estimateChannel g (w.resourceMask .reference) (pilotSymbols sequence true) [raw] = .error .runtime ∨
    ((∀ c, ¬w.RefCell c) ∧
      estimateChannel g (w.resourceMask .reference) (pilotSymbols sequence true) [raw] =
        .error .value) := by
  set mask := w.resourceMask .reference with hmask
  have hshape : raw.map List.length = mask.map List.length := by
    rw [hmask, w.resourceMask_eq hfit, List.map_map]
    have e1 : raw.map List.length = List.replicate w.wordsPerFrame w.numSubcarriers := by
      rw [List.eq_replicate_iff]
      refine ⟨by simpa using hl, ?_⟩
      intro b hb
      obtain ⟨row, hrow, rfl⟩ := List.mem_map.1 hb
      exact hr row hrow
    rw [e1, eq_comm, List.eq_replicate_iff]
    refine ⟨by simpa using types_length_frame w, ?_⟩
    intro b hb
    obtain ⟨u, hu, rfl⟩ := List.mem_map.1 hb
    exact maskRow_length _ _ _ (types_row_le_frame w hfit u hu)
  have hiff : ∀ c, c ∈ whereRows true 0 mask ↔ w.RefCell c := fun c => mem_stems w hfit c
  have hiff2 : ∀ c, c ∈ whereRows false 0 mask ↔ w.InFrame c ∧ ¬w.RefCell c :=
    fun c => mem_holes w hfit c
  have hholes : whereRows false 0 mask ≠ [] := by
    intro h
    apply hspread
    left
    intro c hc
    by_contra hn
    have := (hiff2 c).2 ⟨hc, hn⟩
    rw [h] at this
    cases this
  have hflat : Flat (whereRows true 0 mask) := by
    intro a ha b hb c hc
    by_contra hn
    exact hspread (.inr ⟨a, b, c, (hiff a).1 ha, (hiff b).1 hb, (hiff c).1 hc, hn⟩)
  obtain ⟨refs, hp, _⟩ := (C59_pilot_symbols sequence h0 true
    ((whereRows true 0 mask).map (cellAt raw)).length).2 (.inl rfl)
  unfold estimateChannel
  simp only
  rw [if_neg (by simpa using hshape), hp]
  simp only
  by_cases hs : whereRows true 0 mask = []
  · right
    refine ⟨?_, by rw [if_pos ⟨hholes, hs⟩]⟩
    intro c hc
    have := (hiff c).2 hc
    rw [hs] at this
    cases this
  · left
    rw [if_neg (fun h => hs h.2), if_pos ⟨hholes, hflat⟩]

/-- A frame of one word of two references and one word with a reference and a data symbol. -/
def spreadWave : Wave ℚ where
  numSubcarriers := 2
  structure_ := [.symbols 1 [⟨1, .none, 0, [⟨.reference, 2⟩]⟩,
    ⟨1, .none, 0, [⟨.reference, 1⟩, ⟨.data, 1⟩]⟩] 0]
  pilotSection := none
  defaultPilot := fun n => List.replicate n 9

/-- The same frame with its first word declared as a pilot section with its own symbols `2, 2`. -/
def pilotWave : Wave ℚ where
  numSubcarriers := 2
  structure_ := [.pilot (some (1, [2])), .symbols 1 [⟨1, .none, 0, [⟨.reference, 1⟩, ⟨.data, 1⟩]⟩] 0]
  pilotSection := none
  defaultPilot := fun n => List.replicate n 9

/-- A frame with a single reference word. -/
def lineWave : Wave ℚ where
  numSubcarriers := 2
  structure_ := [.symbols 1 [⟨1, .none, 0, [⟨.reference, 2⟩]⟩, ⟨1, .none, 0, [⟨.data, 2⟩]⟩] 0]
  pilotSection := none
  defaultPilot := fun n => List.replicate n 9

/-- The hypotheses of `C65_estimate_partial` are met: the frame `[[1, 3], [1, 5]]` is sent with pilots
`1, 3, 1` and received weighted by `4`. -/
example : spreadWave.Fits ∧ (∀ s ∈ spreadWave.structure_, ∀ e, s ≠ .pilot e) ∧ spreadWave.Spread ∧
    spreadWave.numDataSymbols = 1 ∧ pilotSymbols [1, 3] true spreadWave.referencesPerFrame =
      .ok ([1, 3, 1] : List ℚ) ∧
    spreadWave.place [5] [1, 3, 1] = .ok [[1, 3], [1, 5]] ∧
    FadedBy (fun _ => (4 : ℚ)) [[1, 3], [1, 5]] [[4, 12], [4, 20]] ∧ ∃ g : Griddata, g.Sound := by
  refine ⟨⟨by decide, ?_⟩, ?_, ?_, rfl, by decide +kernel, rfl, ⟨rfl, ?_⟩, exists_sound⟩
  · intro e he
    simp [spreadWave] at he
  · intro s hs e
    simp only [spreadWave, List.mem_singleton] at hs
    rw [hs]
    simp
  · exact .inr ⟨(0, 0), (0, 1), (1, 0), ⟨_, rfl, rfl⟩, ⟨_, rfl, rfl⟩, ⟨_, rfl, rfl⟩, by decide⟩
  · rintro ⟨i, j⟩
    match i, j with
    | 0, 0 => norm_num [cellAt]
    | 0, 1 => norm_num [cellAt]
    | 1, 0 => norm_num [cellAt]
    | 1, 1 => norm_num [cellAt]
    | 0, j + 2 => simp [cellAt]
    | 1, j + 2 => simp [cellAt]
    | i + 2, j => simp [cellAt]

/-- The hypotheses of `C65_collinear_fails` are met by a frame with a reference word. -/
example : lineWave.Fits ∧ ¬lineWave.Spread ∧ lineWave.RefCell (0, 0) := by
  refine ⟨⟨by decide, ?_⟩, ?_, ⟨_, rfl, rfl⟩⟩
  · intro e he
    simp [lineWave] at he
  · have href : ∀ c, lineWave.RefCell c → c.1 = 0 := by
      rintro ⟨i, j⟩ ⟨u, h1, h2⟩
      match i with
      | 0 => rfl
      | 1 =>
        have hu : u = [.data, .data] := by
          have : lineWave.types[1]? = some [.data, .data] := rfl
          simp only at h1
          rw [this] at h1
          exact (Option.some.inj h1).symm
        subst hu
        match j with
        | 0 => simp at h2
        | 1 => simp at h2
        | j + 2 => simp at h2
      | i + 2 =>
        have : lineWave.types[i + 2]? = none := List.getElem?_eq_none (by
          show 2 ≤ i + 2
          omega)
        simp only at h1
        rw [this] at h1
        cases h1
    rintro (h | ⟨a, b, c, ha, hb, hc, hx⟩)
    · have := href (1, 0) (h (1, 0) ⟨by decide, by decide⟩)
      simp at this
    · apply hx
      unfold cross
      rw [href a ha, href b hb, href c hc]
      simp

/-- C65 is false for pilot sections in the grid: their symbols are their own, but the estimator divides by the
waveform's reference sequence, which moreover is shifted for all following cells. Here a frame is received
unchanged (a channel of one), and yet the reference cells of the pilot section are estimated as 2 and 2/3. -/
theorem C65_pilot_fails : ∃ (w : Wave ℚ) (sequence refs data : List ℚ) (grid : List (List ℚ)),
    w.Fits ∧ w.Spread ∧ (∀ x ∈ sequence, x ≠ 0) ∧
    pilotSymbols sequence true w.referencesPerFrame = .ok refs ∧
    w.place data refs = .ok grid ∧ ∀ g : Griddata, ∃ est,
      estimateChannel g (w.resourceMask .reference) (pilotSymbols sequence true) [grid] = .ok est ∧
      w.RefCell (0, 0) ∧ w.RefCell (0, 1) ∧ cellAt est (0, 0) = 2 ∧ cellAt est (0, 1) = 2 / 3 := by
  refine ⟨pilotWave, [1, 3], [1], [5], [[2, 2], [1, 5]], ⟨by decide, ?_⟩, ?_, by decide, by decide +kernel,
    rfl, ?_⟩
  · intro e he
    simp only [pilotWave, List.mem_cons, Section.pilot.injEq, List.not_mem_nil, or_false,
      reduceCtorEq] at he
    rw [he]
    rfl
  · exact .inr ⟨(0, 0), (0, 1), (1, 0), ⟨_, rfl, rfl⟩, ⟨_, rfl, rfl⟩, ⟨_, rfl, rfl⟩, by decide⟩
  · intro g
    refine ⟨_, rfl, ⟨_, rfl, rfl⟩, ⟨_, rfl, rfl⟩, ?_, ?_⟩
    · show (2 : ℚ) / 1 = 2
      norm_num
    · show (2 : ℚ) / 3 = 2 / 3
      norm_num

end Verif.Modem
