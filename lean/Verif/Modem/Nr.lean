import Verif.Modem.Frame
import Mathlib.Tactic.NormNum
import Mathlib.Tactic.IntervalCases
import Mathlib.Tactic.Linarith
import Mathlib.Tactic.FieldSimp

/-!
# Slots, subframes and frames of 5G NR (C124)

Model of `hermespy/modem/waveforms/ieee_5gnr.py`: waveforms whose grids are built from a number of
resource blocks and a numerology, and the sections of primary and secondary synchronisation signals.
The grids are those of `Verif.Modem.Grid`; here elements may have negative numbers of repetitions, which
the constructors of the waveforms produce.
-/

namespace Verif.Nr

open Verif (PyErr)
open Verif.Modem (ElementType Resource Section Wave sliceBound maskAssign countRows placeLoop)

variable {α : Type}

/-- `nr_subcarrier_spacing`, in Hz.  `modem/waveforms/ieee_5gnr.py` 41-53. -/
def spacing (numerology : Int) : Except PyErr ℚ :=
  if numerology < 0 ∨ numerology > 6 then .error .value else .ok (15000 * 2 ^ numerology.toNat)

/-- `nr_bandwidth`, in Hz.  `modem/waveforms/ieee_5gnr.py` 56-67. -/
def bandwidth (numerology : Int) (blocks : Int) : Except PyErr ℚ :=
  match spacing numerology with
  | .error e => .error e
  | .ok s => .ok (s * 12 * blocks)

/-- A `GridResource` whose elements have any integers as repetitions, which `GridElement` does not
check; all resources of the waveforms have cyclic prefixes of the ratio 0.07, taken as 7/100.
`modem/waveforms/orthogonal/waveform.py` 73-77, 118-128. -/
structure Raw where
  repetitions : Nat
  elements : List (ElementType × Int)

/-- `GridResource.num_subcarriers`.  `modem/waveforms/orthogonal/waveform.py` 172-180. -/
def Raw.numSubcarriers (r : Raw) : Int :=
  r.repetitions * r.elements.foldl (fun num e => num + e.2) 0

/-- `GridResource.num_symbols` and `GridResource.num_references`.
`modem/waveforms/orthogonal/waveform.py` 182-202. -/
def Raw.numOf (r : Raw) (t : ElementType) : Int :=
  r.repetitions * r.elements.foldl (fun num e => if e.1 = t then num + e.2 else num) 0

/-- `row[lo : hi] = True`. -/
def setTrue (row : List Bool) (lo hi : Int) : List Bool :=
  let a := sliceBound row.length lo
  let n := sliceBound row.length hi - a
  row.take a ++ List.replicate n true ++ row.drop (a + n)

/-- Row `t` of `GridResource.mask`.  `modem/waveforms/orthogonal/waveform.py` 204-222. -/
def Raw.mask (r : Raw) (t : ElementType) : List Bool :=
  let s := r.elements.foldl
    (fun (s : List Bool × Int) e => (if e.1 = t then setTrue s.1 s.2 (s.2 + e.2) else s.1, s.2 + e.2))
    (List.replicate r.numSubcarriers.toNat false, 0)
  Np.tile r.repetitions (s.1.take (sliceBound s.1.length s.2))

/-- The number of repetitions of a section; a power of two with a negative exponent is a Python
`float`. -/
inductive Count
  | int (n : Nat)
  | float (q : ℚ)
  deriving DecidableEq

/-- Value of a number of repetitions. -/
def Count.val : Count → ℚ
  | .int n => n
  | .float q => q

/-- An instance of one of the waveforms: the number of subcarriers, the resources, and the sections with
their repetitions and patterns.  `modem/waveforms/orthogonal/waveform.py` 959-995. -/
structure Built where
  numSubcarriers : Nat
  resources : List Raw
  sections : List (Count × List Nat)

/-- `NRSlot._init_pss_resource` and `NRSlot._init_sss_resource`; half of the even number of subcarriers
is exact.  `modem/waveforms/ieee_5gnr.py` 150-182. -/
def syncResource (subcarriers : Nat) : Raw :=
  ⟨1, [(.null, (subcarriers / 2 : Nat) - 64), (.reference, 127), (.null, (subcarriers / 2 : Nat) - 63)]⟩

/-- `NRSlot._init_pbch_resource`.  `modem/waveforms/ieee_5gnr.py` 184-202. -/
def pbchResource (blocks : Nat) : Raw :=
  ⟨blocks, [(.reference, 1), (.data, 3), (.reference, 1), (.data, 3), (.reference, 1), (.data, 3)]⟩

/-- The common part of the constructors, with the number of repetitions of the last section: the grid
resource of the broadcast channel and the section refuse less than one repetition.
`modem/waveforms/ieee_5gnr.py` 214-235, 293-315. -/
def build (blocks : Int) (last : Count) : Except PyErr Built :=
  if blocks < 1 then .error .value
  else if last.val < 1 then .error .value
  else
    let n := blocks.toNat * 12
    .ok ⟨n, [syncResource n, syncResource n, pbchResource blocks.toNat],
      [(.int 1, [0]), (.int 1, [2]), (.int 1, [1]), (last, [2])]⟩

/-- `NRSlot.__init__`.  `modem/waveforms/ieee_5gnr.py` 204-235. -/
def slot (blocks : Int) : Except PyErr Built := build blocks (.int (14 - 3))

/-- `2**numerology * 14 - 3`.  `modem/waveforms/ieee_5gnr.py` 294, 306. -/
def lastCount (numerology : Int) : Count :=
  if 0 ≤ numerology then .int (2 ^ numerology.toNat * 14 - 3)
  else .float (14 / 2 ^ (-numerology).toNat - 3)

/-- `NRSubframe.__init__`.  `modem/waveforms/ieee_5gnr.py` 279-315. -/
def subframe (numerology blocks : Int) : Except PyErr Built := build blocks (lastCount numerology)

/-- `NRFrame.__init__`: ten times the sections of a subframe.  `modem/waveforms/ieee_5gnr.py` 349-355. -/
def frame (numerology blocks : Int) : Except PyErr Built :=
  match subframe numerology blocks with
  | .error e => .error e
  | .ok b => .ok { b with sections := Np.tile 10 b.sections }

/-- The resources of a pattern; indices of the modelled patterns are in range. -/
def Built.pattern (b : Built) (p : List Nat) : List Raw := p.filterMap fun i => b.resources[i]?

/-- The loop of `OrthogonalWaveform.place` with `GridSection.place_symbols`, on sections with integer
repetitions.  `modem/waveforms/orthogonal/waveform.py` 361-379, 1239-1256. -/
def placeRaw [Zero α] (N : Nat) : List (Nat × List Raw) → List α → List α →
    Except PyErr (List (List α))
  | [], _, _ => .ok []
  | (n, rs) :: ss, data, references =>
    let width := rs.foldl (fun num r => max num r.numSubcarriers.toNat) 0
    let mask (t : ElementType) := Np.tile n (rs.map fun r =>
      r.mask t ++ List.replicate (width - r.numSubcarriers.toNat) false)
    let numData := n * rs.foldl (fun num r => num + (r.numOf .data).toNat) 0
    let numRefs := n * rs.foldl (fun num r => num + (r.numOf .reference).toNat) 0
    let zeros := List.replicate (n * rs.length) (List.replicate width (0 : α))
    match maskAssign (mask .reference) zeros (references.take numRefs) with
    | .error e => .error e
    | .ok grid => match maskAssign (mask .data) grid (data.take numData) with
      | .error e => .error e
      | .ok rows =>
        if width > N then .error .value
        else match placeRaw N ss (data.drop numData) (references.drop numRefs) with
          | .error e => .error e
          | .ok rest => .ok (rows.map (fun row => row ++ List.replicate (N - width) 0) ++ rest)

/-- `num_data_symbols` and `references_per_frame`.
`modem/waveforms/orthogonal/waveform.py` 489-505, 1152-1158, 1170-1178. -/
def Built.numOf (b : Built) (t : ElementType) : ℚ :=
  (b.sections.map fun s => s.1.val * ((((b.pattern s.2).map fun r => r.numOf t).sum : Int) : ℚ)).sum

/-- Sections with integer repetitions; numpy refuses others as lengths (`TypeError`). -/
def Built.intSections (b : Built) : Except PyErr (List (Nat × List Raw)) :=
  b.sections.mapM fun (s : Count × List Nat) => match s.1 with
    | .int n => .ok (n, b.pattern s.2)
    | .float _ => .error PyErr.type

/-- `OrthogonalWaveform.place`.  `modem/waveforms/orthogonal/waveform.py` 1221-1258. -/
def Built.place [Zero α] (b : Built) (data references : List α) : Except PyErr (List (List α)) :=
  if (data.length : ℚ) ≠ b.numOf .data then .error .value
  else match b.intSections with
    | .error e => .error e
    | .ok ss => placeRaw b.numSubcarriers ss data references

/-- The resource of `Verif.Modem.Grid`, the same if no repetitions are negative. -/
def Raw.toResource (r : Raw) : Resource :=
  ⟨r.repetitions, .cyclic, 7 / 100, r.elements.map fun e => ⟨e.1, e.2.toNat⟩⟩

/-- The waveform of `Verif.Modem.Grid` and `Verif.Modem.Frame`, the same if no repetitions are negative
and all are integers; there is no pilot section. -/
def Built.wave (b : Built) (default : Nat → List α) : Except PyErr (Wave α) :=
  match b.intSections with
  | .error e => .error e
  | .ok ss => .ok ⟨b.numSubcarriers, ss.map fun s => .symbols s.1 (s.2.map Raw.toResource) 0, none,
      default⟩

/-! ### Synchronisation signals -/

/-- `x[i] = (x[i - a] + x[i - 7]) % 2` after seven given values: the values so far, latest first.
`modem/waveforms/ieee_5gnr.py` 86-89, 123-132. -/
def shiftRegister (a : Nat) : Nat → List Nat → List Nat
  | 0, rev => rev
  | n + 1, rev => shiftRegister a n (((rev[a - 1]?.getD 0 + rev[6]?.getD 0) % 2) :: rev)

/-- `x` of the primary synchronisation signal.  `modem/waveforms/ieee_5gnr.py` 86-89. -/
def pssBits : List Nat := (shiftRegister 3 120 [1, 1, 1, 0, 1, 1, 0].reverse).reverse

/-- `PSS._pilot_sequence`, with integers in place of complex numbers; the requested number of symbols is
ignored.  `modem/waveforms/ieee_5gnr.py` 73-97. -/
def pss (_requested : Option Nat) : List Int :=
  (List.range 127).map fun n => 1 - 2 * ((pssBits[(n + 43 * 0) % 127]?.getD 0 : Nat) : Int)

/-- `a.view(np.complex128)` of an array of doubles: sixteen bytes are needed per element. -/
def viewComplex (xs : List Int) : Except PyErr (List (Int × Int)) :=
  if 8 * xs.length % 16 ≠ 0 then .error .value
  else .ok ((List.range (xs.length / 2)).map fun i => (xs[2 * i]?.getD 0, xs[2 * i + 1]?.getD 0))

/-- `x_0` and `x_1` of the secondary synchronisation signal.  `modem/waveforms/ieee_5gnr.py` 122-132. -/
def sssBits (a : Nat) : List Nat := (shiftRegister a 120 [0, 0, 0, 0, 0, 0, 1].reverse).reverse

/-- The doubles computed by `SSS._pilot_sequence`.  `modem/waveforms/ieee_5gnr.py` 117-137. -/
def sssValues : List Int :=
  (List.range 127).map fun n =>
    (1 - 2 * ((sssBits 3)[n]?.getD 0 : Nat) * (((n + 0) % 127 : Nat) : Int)) *
    (1 - 2 * ((sssBits 6)[n]?.getD 0 : Nat) * (((n + 0) % 127 : Nat) : Int))

/-- `SSS._pilot_sequence`.  `modem/waveforms/ieee_5gnr.py` 103-140. -/
def sss (_requested : Option Nat) : Except PyErr (List (Int × Int)) := viewComplex sssValues

/-- `PilotSection.generate` with `OFDMWaveform._forward_transformation` up to the transformation: the
pilot symbols must fill the subcarriers, or be a single one.
`modem/waveforms/orthogonal/waveform.py` 869-891 and `modem/waveforms/orthogonal/ofdm.py` 98-116. -/
def pilotRow (subcarriers : Nat) (sequence : Option Nat → Except PyErr (List β)) :
    Except PyErr (List β) :=
  match sequence (some subcarriers) with
  | .error e => .error e
  | .ok s =>
    if s.length = subcarriers then .ok s
    else match s with
      | [v] => .ok (List.replicate subcarriers v)
      | _ => .error .value

/-! ### Lemmas -/

theorem sliceBound_nat (len n : Nat) (h : n ≤ len) : sliceBound len (n : Int) = n := by
  unfold sliceBound
  rw [if_neg (by omega)]
  simp [h]

/-- Resources without negative repetitions. -/
def Raw.Plain (r : Raw) : Prop := ∀ e ∈ r.elements, 0 ≤ e.2

theorem fold_total (es : List (ElementType × Int)) (h : ∀ e ∈ es, 0 ≤ e.2) (a : Int) :
    es.foldl (fun num e => num + e.2) a = a + ((es.map fun e => e.2.toNat).sum : Nat) := by
  induction es generalizing a with
  | nil => simp
  | cons e es ih =>
    rw [List.foldl_cons, ih (fun e' he => h e' (List.mem_cons_of_mem _ he)), List.map_cons,
      List.sum_cons]
    have := h e (by simp)
    push_cast
    omega

theorem fold_numOf (t : ElementType) (es : List (ElementType × Int)) (h : ∀ e ∈ es, 0 ≤ e.2) (a : Nat) :
    es.foldl (fun num e => if e.1 = t then num + e.2 else num) (a : Int) =
      ((es.map fun e => (⟨e.1, e.2.toNat⟩ : Modem.Element)).foldl
        (fun num e => if e.type = t then num + e.repetitions else num) a : Nat) := by
  induction es generalizing a with
  | nil => simp
  | cons e es ih =>
    have h0 := h e (by simp)
    have ih' := fun a => ih (fun e' he => h e' (List.mem_cons_of_mem _ he)) a
    rw [List.foldl_cons, List.map_cons, List.foldl_cons]
    by_cases ht : e.1 = t
    · rw [if_pos ht, if_pos ht, ← ih']
      congr 1
      push_cast
      omega
    · rw [if_neg ht, if_neg ht, ih']

theorem Raw.numOf_eq (r : Raw) (h : r.Plain) (t : ElementType) :
    r.numOf t = (r.toResource.numOf t : Int) := by
  unfold Raw.numOf Resource.numOf Raw.toResource
  have := fold_numOf t r.elements h 0
  push_cast at this ⊢
  rw [this]

theorem Raw.numSubcarriers_eq (r : Raw) (h : r.Plain) :
    r.numSubcarriers = (r.toResource.numSubcarriers : Int) := by
  unfold Raw.numSubcarriers Resource.numSubcarriers Raw.toResource
  rw [fold_total _ h, Modem.foldl_add_acc, List.map_map]
  push_cast
  rw [zero_add, zero_add]
  rfl

theorem fold_mask (t : ElementType) (es : List (ElementType × Int)) (h : ∀ e ∈ es, 0 ≤ e.2)
    (pre : List Bool) (m : Nat) (hm : (es.map fun e => e.2.toNat).sum ≤ m) :
    es.foldl (fun (s : List Bool × Int) e =>
        (if e.1 = t then setTrue s.1 s.2 (s.2 + e.2) else s.1, s.2 + e.2))
      (pre ++ List.replicate m false, (pre.length : Int)) =
    (pre ++ (es.flatMap fun e => List.replicate e.2.toNat (decide (e.1 = t))) ++
      List.replicate (m - (es.map fun e => e.2.toNat).sum) false,
      ((pre.length + (es.map fun e => e.2.toNat).sum : Nat) : Int)) := by
  induction es generalizing pre m with
  | nil => simp
  | cons e es ih =>
    have h0 := h e (by simp)
    rw [List.map_cons, List.sum_cons] at hm
    obtain ⟨n, hn⟩ := Int.eq_ofNat_of_zero_le h0
    have hn' : e.2.toNat = n := by omega
    rw [hn'] at hm
    have hstep : (if e.1 = t then setTrue (pre ++ List.replicate m false) (pre.length : Int)
        ((pre.length : Int) + e.2) else pre ++ List.replicate m false) =
        (pre ++ List.replicate n (decide (e.1 = t))) ++ List.replicate (m - n) false := by
      by_cases ht : e.1 = t
      · rw [if_pos ht, setTrue, hn]
        have e1 : sliceBound (pre ++ List.replicate m false).length (pre.length : Int) = pre.length :=
          sliceBound_nat _ _ (by simp)
        have e2 : sliceBound (pre ++ List.replicate m false).length ((pre.length : Int) + (n : Int)) =
            pre.length + n := by
          have := sliceBound_nat (pre ++ List.replicate m false).length (pre.length + n)
            (by simp; omega)
          push_cast at this
          exact this
        simp only [e1, e2, Nat.add_sub_cancel_left]
        rw [List.take_left, List.drop_append, List.drop_replicate]
        simp [ht]
      · rw [if_neg ht]
        simp only [ht, decide_false, List.append_assoc, List.replicate_append_replicate]
        congr 2
        omega
    have hcount : (pre.length : Int) + e.2 =
        ((pre ++ List.replicate n (decide (e.1 = t))).length : Int) := by
      rw [List.length_append, List.length_replicate, hn]
      push_cast
      rfl
    rw [List.foldl_cons]
    show List.foldl _ (if e.1 = t then _ else _, (pre.length : Int) + e.2) es = _
    rw [hstep, hcount, ih (fun e' he => h e' (List.mem_cons_of_mem _ he)) _ (m - n) (by omega)]
    rw [List.map_cons, List.sum_cons, List.flatMap_cons, hn']
    simp only [List.append_assoc, List.length_append, List.length_replicate]
    rw [Nat.sub_sub]
    congr 2
    omega

theorem Raw.mask_eq (r : Raw) (h : r.Plain) (t : ElementType) : r.mask t = r.toResource.mask t := by
  have hres : r.toResource.mask t = Np.tile r.repetitions
      (r.elements.flatMap fun e => List.replicate e.2.toNat (decide (e.1 = t))) := by
    rw [Resource.mask, Modem.foldl_append_acc, List.nil_append]
    show Np.tile r.repetitions _ = _
    congr 1
    rw [Raw.toResource, List.flatMap_map]
  rw [hres, Raw.mask]
  by_cases h0 : r.repetitions = 0
  · simp [h0, Np.tile]
  set T := (r.elements.map fun e => e.2.toNat).sum with hT
  have hw : r.numSubcarriers.toNat = r.repetitions * T := by
    rw [Raw.numSubcarriers, fold_total _ h, ← hT, zero_add]
    norm_cast
  have hle : T ≤ r.repetitions * T := Nat.le_mul_of_pos_left _ (Nat.pos_of_ne_zero h0)
  have hf := fold_mask t r.elements h [] (r.repetitions * T) hle
  simp only [List.nil_append, List.length_nil, Nat.cast_zero, Nat.zero_add] at hf
  rw [hw]
  simp only [hf]
  congr 1
  have hl : (r.elements.flatMap fun e => List.replicate e.2.toNat (decide (e.1 = t))).length = T := by
    rw [List.length_flatMap]
    simp [hT]
  rw [← hT, sliceBound_nat _ _ (by rw [List.length_append, hl]; omega), List.take_left' hl]

/-- Placing is that of `Verif.Modem.Grid`. -/
theorem placeRaw_eq [Zero α] (N : Nat) (default : Nat → List α) (st : List (Section α))
    (ss : List (Nat × List Raw))
    (h : ∀ s ∈ ss, ∀ r ∈ s.2, r.Plain) (data references : List α) :
    placeRaw N ss data references =
      placeLoop ⟨N, st, none, default⟩
        (ss.map fun s => .symbols s.1 (s.2.map Raw.toResource) 0) data references := by
  induction ss generalizing data references with
  | nil => rfl
  | cons s ss ih =>
    obtain ⟨n, rs⟩ := s
    have hrs : ∀ r ∈ rs, r.Plain := h (n, rs) (by simp)
    have fold_congr : ∀ (f g : Nat → Raw → Nat) (l : List Raw) (a : Nat),
        (∀ r ∈ l, ∀ a, f a r = g a r) → l.foldl f a = l.foldl g a := by
      intro f g l
      induction l with
      | nil => intros; rfl
      | cons x l ihl =>
        intro a hfg
        rw [List.foldl_cons, List.foldl_cons, hfg x (by simp),
          ihl _ (fun r hr => hfg r (List.mem_cons_of_mem _ hr))]
    have hw : rs.foldl (fun num r => max num r.numSubcarriers.toNat) 0 =
        (Section.symbols n (rs.map Raw.toResource) 0 : Section α).numSubcarriers N := by
      rw [Section.numSubcarriers, List.foldl_map]
      refine fold_congr _ _ _ _ fun r hr a => ?_
      rw [Raw.numSubcarriers_eq r (hrs r hr), Int.toNat_natCast]
    have hnd : ∀ t, rs.foldl (fun num r => num + (r.numOf t).toNat) 0 =
        (rs.map Raw.toResource).foldl (fun num r => num + r.numOf t) 0 := by
      intro t
      rw [List.foldl_map]
      refine fold_congr _ _ _ _ fun r hr a => ?_
      rw [Raw.numOf_eq r (hrs r hr), Int.toNat_natCast]
    have hm : ∀ t, Np.tile n (rs.map fun r => r.mask t ++ List.replicate
          ((Section.symbols n (rs.map Raw.toResource) 0 : Section α).numSubcarriers N -
            r.numSubcarriers.toNat) false) =
        (Section.symbols n (rs.map Raw.toResource) 0 : Section α).resourceMask N t := by
      intro t
      rw [Section.resourceMask, List.map_map]
      congr 1
      refine List.map_congr_left fun r hr => ?_
      rw [Raw.mask_eq r (hrs r hr), Raw.numSubcarriers_eq r (hrs r hr), Int.toNat_natCast]
      rfl
    rw [placeRaw, List.map_cons, placeLoop]
    simp only [hw, hnd, hm]
    have hN : ∀ a b, placeRaw N ss a b = _ := fun a b =>
      ih (fun s hs => h s (List.mem_cons_of_mem _ hs)) a b
    simp only [hN, Section.placeSymbols, Section.ownReferences, Section.numWords, Section.numSymbols,
      Section.numReferences, List.length_map]
    rcases maskAssign (Section.resourceMask N .reference
      (Section.symbols n (rs.map Raw.toResource) 0 : Section α))
      (List.replicate (n * rs.length) (List.replicate ((Section.symbols n (rs.map Raw.toResource) 0 :
        Section α).numSubcarriers N) (0 : α)))
      (references.take (n * (rs.map Raw.toResource).foldl (fun num r => num + r.numOf .reference) 0))
      with e | g
    · rfl
    · rfl

theorem flatMap_tile {β γ : Type} (f : β → List γ) (c : Nat) (l : List β) :
    (Np.tile c l).flatMap f = Np.tile c (l.flatMap f) := by
  induction c with
  | zero => simp [Np.tile]
  | succ c ih =>
    simp only [Np.tile] at ih ⊢
    rw [List.replicate_succ, List.flatten_cons, List.flatMap_append, ih, List.replicate_succ,
      List.flatten_cons]

theorem map_tile {β γ : Type} (f : β → γ) (c : Nat) (l : List β) :
    (Np.tile c l).map f = Np.tile c (l.map f) := by
  simp [Np.tile, List.map_flatten]

theorem sum_tile_rat (c : Nat) (l : List ℚ) : (Np.tile c l).sum = c * l.sum := by
  induction c with
  | zero => simp [Np.tile]
  | succ c ih =>
    simp only [Np.tile] at ih ⊢
    rw [List.replicate_succ, List.flatten_cons, List.sum_append, ih]
    push_cast
    ring

theorem sum_tile (c : Nat) (l : List Nat) : (Np.tile c l).sum = c * l.sum := by
  induction c with
  | zero => simp [Np.tile]
  | succ c ih =>
    simp only [Np.tile] at ih ⊢
    rw [List.replicate_succ, List.flatten_cons, List.sum_append, ih]
    ring

theorem mem_tile {β : Type} (c : Nat) (l : List β) (x : β) (h : x ∈ Np.tile c l) : x ∈ l := by
  simp only [Np.tile, List.mem_flatten, List.mem_replicate] at h
  obtain ⟨l', ⟨_, rfl⟩, hx⟩ := h
  exact hx

theorem mapM_ok {β γ : Type} (f : β → Except PyErr γ) (g : β → γ) (l : List β)
    (h : ∀ x ∈ l, f x = .ok (g x)) : l.mapM f = .ok (l.map g) := by
  induction l with
  | nil => rfl
  | cons x l ih =>
    rw [List.mapM_cons, h x (by simp), ih (fun y hy => h y (List.mem_cons_of_mem _ hy))]
    rfl

/-- The waveform of `c` subframes with `n + 3` words each. -/
def instanceOf (blocks n c : Nat) : Built :=
  ⟨blocks * 12, [syncResource (blocks * 12), syncResource (blocks * 12), pbchResource blocks],
    Np.tile c [(.int 1, [0]), (.int 1, [2]), (.int 1, [1]), (.int n, [2])]⟩

/-- Its sections with resources. -/
def rawSections (blocks n : Nat) : List (Nat × List Raw) :=
  [(1, [syncResource (blocks * 12)]), (1, [pbchResource blocks]), (1, [syncResource (blocks * 12)]),
    (n, [pbchResource blocks])]

/-- Its grid. -/
def waveOf (blocks n c : Nat) (default : Nat → List α) : Wave α :=
  ⟨blocks * 12, Np.tile c ((rawSections blocks n).map fun s => .symbols s.1 (s.2.map Raw.toResource) 0),
    none, default⟩

theorem slot_eq (blocks : Nat) (h : 1 ≤ blocks) : slot blocks = .ok (instanceOf blocks 11 1) := by
  unfold slot build
  rw [if_neg (by omega), if_neg (by norm_num [Count.val])]
  simp [instanceOf, Np.tile]

theorem subframe_eq (numerology blocks : Nat) (h : 1 ≤ blocks) :
    subframe numerology blocks = .ok (instanceOf blocks (14 * 2 ^ numerology - 3) 1) := by
  have hp : 1 ≤ 2 ^ numerology := Nat.one_le_two_pow
  have hl : lastCount numerology = .int (2 ^ numerology * 14 - 3) := by
    unfold lastCount
    rw [if_pos (by omega), Int.toNat_natCast]
  unfold subframe build
  rw [hl, if_neg (by omega), if_neg ?_]
  · simp [instanceOf, Np.tile, Nat.mul_comm]
  · show ¬ (((2 ^ numerology * 14 - 3 : Nat) : ℚ) < 1)
    rw [not_lt]
    exact_mod_cast (show 1 ≤ 2 ^ numerology * 14 - 3 by omega)

theorem frame_eq (numerology blocks : Nat) (h : 1 ≤ blocks) :
    frame numerology blocks = .ok (instanceOf blocks (14 * 2 ^ numerology - 3) 10) := by
  unfold frame
  rw [subframe_eq numerology blocks h]
  simp [instanceOf, Np.tile]

theorem intSections_eq (blocks n c : Nat) :
    (instanceOf blocks n c).intSections = .ok (Np.tile c (rawSections blocks n)) := by
  unfold Built.intSections
  rw [mapM_ok _ (fun s => (match s.1 with | .int n => n | .float _ => 0,
    (instanceOf blocks n c).pattern s.2))]
  · show Except.ok ((Np.tile c _).map _) = _
    rw [map_tile]
    rfl
  · intro s hs
    have := mem_tile _ _ _ hs
    simp only [List.mem_cons, List.not_mem_nil, or_false] at this
    rcases this with rfl | rfl | rfl | rfl <;> rfl

theorem wave_eq (blocks n c : Nat) (default : Nat → List α) :
    (instanceOf blocks n c).wave default = .ok (waveOf blocks n c default) := by
  unfold Built.wave
  rw [intSections_eq]
  show Except.ok _ = _
  rw [map_tile]
  rfl

theorem plain (blocks n : Nat) (h : 11 ≤ blocks) :
    ∀ s ∈ rawSections blocks n, ∀ r ∈ s.2, r.Plain := by
  have h1 : (syncResource (blocks * 12)).Plain := by
    intro e he
    simp only [syncResource, List.mem_cons, List.not_mem_nil, or_false] at he
    rcases he with rfl | rfl | rfl <;> simp <;> omega
  have h2 : (pbchResource blocks).Plain := by
    intro e he
    simp only [pbchResource, List.mem_cons, List.not_mem_nil, or_false] at he
    rcases he with rfl | rfl | rfl | rfl | rfl | rfl <;> simp
  intro s hs r hr
  simp only [rawSections, List.mem_cons, List.not_mem_nil, or_false] at hs
  rcases hs with rfl | rfl | rfl | rfl <;> simp only [List.mem_singleton] at hr <;> subst hr <;>
    assumption

/-- Resource of the synchronisation signals. -/
def sync (blocks : Nat) : Resource := (syncResource (blocks * 12)).toResource

/-- Resource of the broadcast channel. -/
def pbch (blocks : Nat) : Resource := (pbchResource blocks).toResource

theorem sync_elements (blocks : Nat) : (sync blocks).elements =
    [⟨.null, 6 * blocks - 64⟩, ⟨.reference, 127⟩, ⟨.null, 6 * blocks - 63⟩] := by
  simp only [sync, syncResource, Raw.toResource, List.map_cons, List.map_nil]
  congr 3
  · omega
  · congr 2
    omega

theorem sync_width (blocks : Nat) (h : 11 ≤ blocks) : (sync blocks).numSubcarriers = 12 * blocks := by
  rw [Resource.numSubcarriers, sync_elements]
  simp [sync, syncResource, Raw.toResource]
  omega

theorem pbch_width (blocks : Nat) : (pbch blocks).numSubcarriers = 12 * blocks := by
  simp [Resource.numSubcarriers, pbch, pbchResource, Raw.toResource]
  omega

theorem structure_eq (blocks n c : Nat) (default : Nat → List α) :
    (waveOf blocks n c default).structure_ = Np.tile c [.symbols 1 [sync blocks] 0,
      .symbols 1 [pbch blocks] 0, .symbols 1 [sync blocks] 0, .symbols n [pbch blocks] 0] := rfl

theorem counts (blocks n c : Nat) (default : Nat → List α) :
    (waveOf blocks n c default).numDataSymbols = c * ((n + 1) * (9 * blocks)) ∧
    (waveOf blocks n c default).referencesPerFrame = c * ((n + 1) * (3 * blocks) + 254) ∧
    (waveOf blocks n c default).wordsPerFrame = c * (n + 3) := by
  obtain ⟨h1, h2, h3⟩ := (waveOf blocks n c default).sums
  rw [h1, h2, h3, structure_eq, map_tile, map_tile, map_tile, sum_tile, sum_tile, sum_tile]
  have s1 : (sync blocks).numOf .data = 0 := by
    rw [Resource.numOf, sync_elements]; simp
  have s2 : (sync blocks).numOf .reference = 127 := by
    rw [Resource.numOf, sync_elements]; simp [sync, syncResource, Raw.toResource]
  have p1 : (pbch blocks).numOf .data = 9 * blocks := by
    simp [Resource.numOf, pbch, pbchResource, Raw.toResource]; omega
  have p2 : (pbch blocks).numOf .reference = 3 * blocks := by
    simp [Resource.numOf, pbch, pbchResource, Raw.toResource]; omega
  simp only [List.map_cons, List.map_nil, List.sum_cons, List.sum_nil, Section.numSymbols,
    Section.numReferences, Section.numWords, List.foldl_cons, List.foldl_nil, s1, s2, p1, p2,
    List.length_singleton]
  refine ⟨?_, ?_, ?_⟩
  · congr 1; ring
  · congr 1; ring
  · congr 1; ring

theorem fits (blocks n c : Nat) (h : 11 ≤ blocks) (default : Nat → List α) :
    (waveOf blocks n c default).Fits := by
  refine ⟨fun s hs => ?_, fun e he => ?_⟩
  · rw [structure_eq] at hs
    have := mem_tile _ _ _ hs
    simp only [List.mem_cons, List.not_mem_nil, or_false] at this
    rcases this with rfl | rfl | rfl | rfl <;>
      simp [Section.numSubcarriers, sync_width blocks h, pbch_width, waveOf] <;> omega
  · rw [structure_eq] at he
    have := mem_tile _ _ _ he
    simp at this

theorem numOf_data (blocks n c : Nat) :
    (instanceOf blocks n c).numOf .data = ((c * ((n + 1) * (9 * blocks)) : Nat) : ℚ) := by
  unfold Built.numOf
  show ((Np.tile c _).map _).sum = _
  rw [map_tile, sum_tile_rat]
  simp [Count.val, Built.pattern, instanceOf, Raw.numOf, syncResource, pbchResource]
  left
  ring

theorem place_eq [Zero α] (blocks n c : Nat) (h : 11 ≤ blocks) (default : Nat → List α)
    (data references : List α) :
    (instanceOf blocks n c).place data references =
      (waveOf blocks n c default).place data references := by
  unfold Built.place Wave.place
  rw [numOf_data, (counts blocks n c default).1, intSections_eq]
  simp only [ne_eq, Nat.cast_inj]
  split
  · rfl
  · show placeRaw (blocks * 12) (Np.tile c (rawSections blocks n)) data references = _
    rw [placeRaw_eq (blocks * 12) default (waveOf blocks n c default).structure_]
    · rw [map_tile]
      rfl
    · intro s hs
      exact plain blocks n h s (mem_tile _ _ _ hs)

/-- What is on subcarrier `k` of word `i` of a subframe: synchronisation signals on 127 subcarriers of the
words 0 and 2, which are empty otherwise; on all other words every fourth subcarrier is a reference. -/
def expected (blocks i k : Nat) : ElementType :=
  if i = 0 ∨ i = 2 then
    if 6 * blocks ≤ k + 64 ∧ k < 6 * blocks + 63 then .reference else .null
  else if k % 4 = 0 then .reference else .data

theorem sync_types (blocks : Nat) (h : 11 ≤ blocks) (k : Nat) (hk : k < 12 * blocks) :
    (sync blocks).types[k]? = some (expected blocks 0 k) := by
  have hr : (sync blocks).repetitions = 1 := rfl
  rw [Resource.types, sync_elements, hr]
  simp only [List.replicate_one, List.flatten_cons, List.flatten_nil, List.append_nil,
    List.flatMap_cons, List.flatMap_nil]
  unfold expected
  simp only [true_or, if_true]
  by_cases h1 : k < 6 * blocks - 64
  · rw [if_neg (by omega), List.getElem?_append_left (by simpa using h1), List.getElem?_replicate,
      if_pos h1]
  · rw [List.getElem?_append_right (by simpa using h1), List.length_replicate]
    by_cases h2 : k < 6 * blocks + 63
    · rw [if_pos (by omega), List.getElem?_append_left (by simp; omega), List.getElem?_replicate,
        if_pos (by omega)]
    · rw [if_neg (by omega), List.getElem?_append_right (by simp; omega), List.length_replicate,
        List.getElem?_replicate, if_pos (by omega)]

theorem pbch_types (blocks i : Nat) (hi : i ≠ 0 ∧ i ≠ 2) (k : Nat) (hk : k < 12 * blocks) :
    (pbch blocks).types[k]? = some (expected blocks i k) := by
  have ht : (pbch blocks).types = Np.tile blocks ([.reference, .data, .data, .data, .reference, .data,
    .data, .data, .reference, .data, .data, .data] : List ElementType) := rfl
  rw [ht, Modem.tile_getElem? _ _ _ (by simp; omega)]
  unfold expected
  rw [if_neg (by omega), show k % 4 = k % 12 % 4 by omega]
  simp only [List.length_cons, List.length_nil]
  have : k % 12 < 12 := Nat.mod_lt _ (by omega)
  generalize k % 12 = m at this
  interval_cases m <;> rfl

theorem types_eq (blocks n c : Nat) (default : Nat → List α) :
    (waveOf blocks n c default).types = Np.tile c ((sync blocks).types :: (pbch blocks).types ::
      (sync blocks).types :: List.replicate n (pbch blocks).types) := by
  rw [Wave.types, structure_eq, flatMap_tile]
  congr 1
  simp only [List.flatMap_cons, List.flatMap_nil, Section.types, List.map_cons, List.map_nil,
    List.replicate_one, List.flatten_cons, List.flatten_nil, List.append_nil, List.singleton_append]
  rw [List.flatten_replicate_singleton]

theorem cells (blocks n c : Nat) (h : 11 ≤ blocks) (default : Nat → List α) :
    (waveOf blocks n c default).types.length = c * (n + 3) ∧
    ∀ i < c * (n + 3), ∃ word, (waveOf blocks n c default).types[i]? = some word ∧
      word.length = 12 * blocks ∧
      ∀ k < 12 * blocks, word[k]? = some (expected blocks (i % (n + 3)) k) := by
  have hl : ((sync blocks).types :: (pbch blocks).types ::
      (sync blocks).types :: List.replicate n (pbch blocks).types).length = n + 3 := by simp
  rw [types_eq]
  refine ⟨by rw [Modem.tile_length, hl], fun i hi => ?_⟩
  rw [Modem.tile_getElem? _ _ _ (by rw [hl]; exact hi), hl]
  have hm : i % (n + 3) < n + 3 := Nat.mod_lt _ (by omega)
  generalize i % (n + 3) = j at hm
  match j, hm with
  | 0, _ => exact ⟨_, rfl, by rw [Resource.types_length, sync_width blocks h], sync_types blocks h⟩
  | 1, _ => exact ⟨_, rfl, by rw [Resource.types_length, pbch_width],
      pbch_types blocks 1 (by omega)⟩
  | 2, _ => exact ⟨_, rfl, by rw [Resource.types_length, sync_width blocks h], fun k hk => by
      rw [sync_types blocks h k hk]; rfl⟩
  | j + 3, hm =>
    refine ⟨(pbch blocks).types, ?_, by rw [Resource.types_length, pbch_width],
      pbch_types blocks (j + 3) (by omega)⟩
    simp only [List.getElem?_cons_succ, List.getElem?_replicate]
    rw [if_pos (by omega)]

theorem expected_references (w : Wave α) (ss : List (Section α)) (refs : List α)
    (h : ∀ s ∈ ss, ∃ n p o, s = .symbols n p o)
    (hl : refs.length = (ss.map (·.numReferences w.numSubcarriers)).sum) :
    Modem.expectedReferences w ss refs = refs := by
  induction ss generalizing refs with
  | nil =>
    simp only [List.map_nil, List.sum_nil, List.length_eq_zero_iff] at hl
    rw [hl]; rfl
  | cons s ss ih =>
    obtain ⟨n, p, o, rfl⟩ := h s (by simp)
    rw [List.map_cons, List.sum_cons] at hl
    show refs.take _ ++ Modem.expectedReferences w ss (refs.drop _) = refs
    rw [ih _ (fun s hs => h s (List.mem_cons_of_mem _ hs)) (by rw [List.length_drop, hl]; omega),
      List.take_append_drop]

/-- Placing and picking. -/
theorem placed [Zero α] (blocks n c : Nat) (h : 11 ≤ blocks) (default : Nat → List α)
    (data references : List α) (hd : data.length = c * ((n + 1) * (9 * blocks)))
    (hr : references.length = c * ((n + 1) * (3 * blocks) + 254)) :
    ∃ grid, (instanceOf blocks n c).place data references = .ok grid ∧ grid.length = c * (n + 3) ∧
      (∀ row ∈ grid, row.length = 12 * blocks) ∧
      Modem.cellsOfGrid .data (waveOf blocks n c default).types grid = data ∧
      Modem.cellsOfGrid .reference (waveOf blocks n c default).types grid = references ∧
      (∀ x ∈ Modem.cellsOfGrid .null (waveOf blocks n c default).types grid, x = 0) ∧
      (waveOf blocks n c default).pick grid = .ok data := by
  obtain ⟨c1, c2, c3⟩ := counts blocks n c default
  obtain ⟨grid, h1, h2, h3, h4, h5, h6⟩ := Modem.C55_place (waveOf blocks n c default)
    (fits blocks n c h default) data references (by rw [hd, c1]) (by rw [hr, c2])
  refine ⟨grid, by rw [place_eq blocks n c h default, h1], by rw [h2, c3],
    fun row hrow => by rw [h3 row hrow]; exact Nat.mul_comm _ _, h4, ?_, h6, ?_⟩
  · rw [h5]
    refine expected_references _ _ _ (fun s hs => ?_) ?_
    · rw [structure_eq] at hs
      have := mem_tile _ _ _ hs
      simp only [List.mem_cons, List.not_mem_nil, or_false] at this
      rcases this with rfl | rfl | rfl | rfl <;> exact ⟨_, _, _, rfl⟩
    · rw [hr, ← c2, (waveOf blocks n c default).sums.2.1]
  · rw [Modem.C55_pick _ (fits blocks n c h default) grid h2 h3, h4]

theorem samples (blocks n c : Nat) (default : Nat → List α) (B : ℚ) (os : Nat) :
    (waveOf blocks n c default).samplesPerFrame B os =
      c * ((n + 3) * (12 * blocks * os + ⌊((12 * blocks * os : Nat) : ℚ) * (7 / 100)⌋₊)) := by
  rw [Wave.samplesPerFrame, Modem.foldl_add_acc, structure_eq, map_tile, sum_tile]
  have e : ∀ m : Nat, ∀ r : Resource, r.prefixRatio = 7 / 100 →
      (Section.symbols m [r] 0 : Section α).numSamples (waveOf blocks n c default).numSubcarriers B os =
        m * (12 * blocks * os + ⌊((12 * blocks * os : Nat) : ℚ) * (7 / 100)⌋₊) := by
    intro m r hr
    have hN : (waveOf blocks n c default).numSubcarriers = 12 * blocks := Nat.mul_comm _ _
    simp only [Section.numSamples, List.foldl_cons, List.foldl_nil, List.length_singleton,
      Modem.prefixSamples, hr, hN]
    ring
  simp only [List.map_cons, List.map_nil, List.sum_cons, List.sum_nil, e _ (sync blocks) rfl,
    e _ (pbch blocks) rfl]
  have hp : (waveOf blocks n c default).pilotSection.isSome = false := rfl
  rw [hp]
  simp only [Bool.false_eq_true, if_false]
  ring

/-! ### C124 -/

/-- C124, content of the grids: slots, subframes and frames of any numerology and of at least eleven
resource blocks have twelve subcarriers per block and 14 words per slot, one, `2 ^ numerology` and
`10 * 2 ^ numerology` slots; the words 0 and 2 of each subframe contain 127 synchronisation symbols, all
others references on every fourth subcarrier and data. -/
theorem C124_cells_partial (numerology blocks : Nat) (h : 11 ≤ blocks) (default : Nat → List α) :
    (∃ b w, slot blocks = .ok b ∧ b.wave default = .ok w ∧ w.numSubcarriers = 12 * blocks ∧
      w.types.length = 14 ∧
      ∀ i < 14, ∃ word, w.types[i]? = some word ∧ word.length = 12 * blocks ∧
        ∀ k < 12 * blocks, word[k]? = some (expected blocks i k)) ∧
    (∃ b w, subframe numerology blocks = .ok b ∧ b.wave default = .ok w ∧
      w.numSubcarriers = 12 * blocks ∧ w.types.length = 14 * 2 ^ numerology ∧
      ∀ i < 14 * 2 ^ numerology, ∃ word, w.types[i]? = some word ∧ word.length = 12 * blocks ∧
        ∀ k < 12 * blocks, word[k]? = some (expected blocks i k)) ∧
    (∃ b w, frame numerology blocks = .ok b ∧ b.wave default = .ok w ∧
      w.numSubcarriers = 12 * blocks ∧ w.types.length = 10 * (14 * 2 ^ numerology) ∧
      ∀ i < 10 * (14 * 2 ^ numerology), ∃ word, w.types[i]? = some word ∧ word.length = 12 * blocks ∧
        ∀ k < 12 * blocks, word[k]? = some (expected blocks (i % (14 * 2 ^ numerology)) k)) := by
  have hp : 1 ≤ 2 ^ numerology := Nat.one_le_two_pow
  have hn : 14 * 2 ^ numerology - 3 + 3 = 14 * 2 ^ numerology := by omega
  refine ⟨⟨_, _, slot_eq blocks (by omega), wave_eq _ _ _ default, Nat.mul_comm _ _, ?_, ?_⟩,
    ⟨_, _, subframe_eq numerology blocks (by omega), wave_eq _ _ _ default, Nat.mul_comm _ _, ?_, ?_⟩,
    ⟨_, _, frame_eq numerology blocks (by omega), wave_eq _ _ _ default, Nat.mul_comm _ _, ?_, ?_⟩⟩
  · rw [(cells blocks 11 1 h default).1]
  · intro i hi
    have := (cells blocks 11 1 h default).2 i (by omega)
    rwa [Nat.mod_eq_of_lt (by omega)] at this
  · rw [(cells blocks _ 1 h default).1, hn, Nat.one_mul]
  · intro i hi
    have := (cells blocks (14 * 2 ^ numerology - 3) 1 h default).2 i (by omega)
    rwa [hn, Nat.mod_eq_of_lt hi] at this
  · rw [(cells blocks _ 10 h default).1, hn]
  · intro i hi
    have := (cells blocks (14 * 2 ^ numerology - 3) 10 h default).2 i (by rw [hn]; exact hi)
    rwa [hn] at this

/-- C124, symbols: a slot carries `9 * 12` data symbols per resource block, subframes and frames
accordingly; they are placed in order on the data cells, references on the reference cells, all other
cells are empty, and picking returns the data. -/
theorem C124_symbols_partial [Zero α] (numerology blocks : Nat) (h : 11 ≤ blocks)
    (default : Nat → List α) (data references : List α) (subframes : Nat)
    (hs : subframes = 1 ∨ subframes = 10)
    (hd : data.length = subframes * ((14 * 2 ^ numerology - 2) * (9 * blocks)))
    (hr : references.length = subframes * ((14 * 2 ^ numerology - 2) * (3 * blocks) + 2 * 127)) :
    ∃ b w grid, (if subframes = 1 then subframe numerology blocks else frame numerology blocks) = .ok b ∧
      (subframes = 1 ∧ numerology = 0 → slot blocks = .ok b) ∧
      b.wave default = .ok w ∧ w.numDataSymbols = data.length ∧
      w.referencesPerFrame = references.length ∧ b.place data references = .ok grid ∧
      grid.length = subframes * (14 * 2 ^ numerology) ∧ (∀ row ∈ grid, row.length = 12 * blocks) ∧
      Modem.cellsOfGrid .data w.types grid = data ∧
      Modem.cellsOfGrid .reference w.types grid = references ∧
      (∀ x ∈ Modem.cellsOfGrid .null w.types grid, x = 0) ∧ w.pick grid = .ok data := by
  have hp : 1 ≤ 2 ^ numerology := Nat.one_le_two_pow
  have hn1 : 14 * 2 ^ numerology - 3 + 1 = 14 * 2 ^ numerology - 2 := by omega
  have hn3 : 14 * 2 ^ numerology - 3 + 3 = 14 * 2 ^ numerology := by omega
  obtain ⟨c1, c2, _⟩ := counts blocks (14 * 2 ^ numerology - 3) subframes default
  obtain ⟨grid, g1, g2, g3, g4, g5, g6, g7⟩ := placed blocks (14 * 2 ^ numerology - 3) subframes h
    default data references (by rw [hn1]; exact hd) (by rw [hn1]; exact hr)
  refine ⟨instanceOf blocks (14 * 2 ^ numerology - 3) subframes, _, grid, ?_, ?_, wave_eq _ _ _ default,
    ?_, ?_, g1, by rw [g2, hn3], g3, g4, g5, g6, g7⟩
  · rcases hs with rfl | rfl
    · rw [if_pos rfl, subframe_eq numerology blocks (by omega)]
    · rw [if_neg (by omega), frame_eq numerology blocks (by omega)]
  · rintro ⟨rfl, rfl⟩
    rw [slot_eq blocks (by omega)]
    rfl
  · rw [c1, hn1, hd]
  · rw [c2, hn1, hr]

/-- C124, transmission: with a lossless pair of transformations, as those of OFDM, the samples of a
subframe or frame give back the data. -/
theorem C124_chain_partial [Zero α] (numerology blocks : Nat) (h : 11 ≤ blocks)
    (default : Nat → List α) (data references : List α) (subframes : Nat)
    (hs : subframes = 1 ∨ subframes = 10)
    (hd : data.length = subframes * ((14 * 2 ^ numerology - 2) * (9 * blocks)))
    (hr : references.length = subframes * ((14 * 2 ^ numerology - 2) * (3 * blocks) + 2 * 127))
    (forward backward : List (List α) → List (List α)) (correct : List (List α) → Int → List (List α))
    (B : ℚ) (os : Nat) (ht : Modem.Lossless (12 * blocks) os forward backward) :
    ∃ b w grid out, (if subframes = 1 then subframe numerology blocks else frame numerology blocks) = .ok b ∧
      b.wave default = .ok w ∧ b.place data references = .ok grid ∧
      w.modulate forward B os grid = .ok out ∧
      ∀ rx, Modem.Realises out rx → ∃ grid', w.demodulate backward correct B os rx = .ok grid' ∧
        w.pick grid' = .ok data := by
  have hp : 1 ≤ 2 ^ numerology := Nat.one_le_two_pow
  obtain ⟨c1, c2, _⟩ := counts blocks (14 * 2 ^ numerology - 3) subframes default
  have hn1 : 14 * 2 ^ numerology - 3 + 1 = 14 * 2 ^ numerology - 2 := by omega
  have hmem : ∀ s ∈ (waveOf blocks (14 * 2 ^ numerology - 3) subframes default).structure_,
      ∃ n r, s = Section.symbols n [r] 0 ∧ r.prefixRatio = 7 / 100 := by
    intro s hs
    rw [structure_eq] at hs
    have := mem_tile _ _ _ hs
    simp only [List.mem_cons, List.not_mem_nil, or_false] at this
    rcases this with rfl | rfl | rfl | rfl <;> exact ⟨_, _, rfl, rfl⟩
  obtain ⟨grid, out, g1, g2, g3⟩ := Modem.C56_chain
    (waveOf blocks (14 * 2 ^ numerology - 3) subframes default) forward backward correct B os
    (by rw [show (waveOf blocks (14 * 2 ^ numerology - 3) subframes default).numSubcarriers =
      12 * blocks from Nat.mul_comm _ _]; exact ht)
    (fits _ _ _ h default)
    (fun s hs => by
      obtain ⟨n, r, rfl, _⟩ := hmem s hs
      rfl)
    (fun reps pattern off hs r hr _ => by
      obtain ⟨n, r', he, hq⟩ := hmem _ hs
      injection he with _ hpat _
      subst hpat
      rw [List.mem_singleton] at hr
      subst hr
      rw [Modem.prefixSamples, hq]
      refine Nat.floor_le_of_le ?_
      have : (0 : ℚ) ≤ (((waveOf blocks (14 * 2 ^ numerology - 3) subframes default).numSubcarriers * os :
        Nat) : ℚ) := by positivity
      linarith)
    (fun e he => by simp [waveOf] at he) data references (by rw [c1, hn1, hd]) (by rw [c2, hn1, hr])
  refine ⟨instanceOf blocks (14 * 2 ^ numerology - 3) subframes, _, grid, out, ?_,
    wave_eq _ _ _ default, by rw [place_eq _ _ _ h default, g1], g2, g3⟩
  rcases hs with rfl | rfl
  · rw [if_pos rfl, subframe_eq numerology blocks (by omega)]
  · rw [if_neg (by omega), frame_eq numerology blocks (by omega)]

/-- C124, duration: at the bandwidth of a numerology and a number of resource blocks, a subframe lasts
the same for all numerologies, a slot its `2 ^ numerology`-th part and a frame ten times as long; from 24
resource blocks on, a subframe lasts between 0.995 and 0.9987 milliseconds. -/
theorem C124_duration_partial (numerology blocks : Nat) (hm : numerology ≤ 6) (h : 1 ≤ blocks)
    (default : Nat → List α) :
    ∃ B b0 b1 b2 w0 w1 w2, bandwidth numerology blocks = .ok B ∧
      slot blocks = .ok b0 ∧ b0.wave default = .ok w0 ∧
      subframe numerology blocks = .ok b1 ∧ b1.wave default = .ok w1 ∧
      frame numerology blocks = .ok b2 ∧ b2.wave default = .ok w2 ∧
      w1.frameDuration B = 14 * (12 * blocks + ⌊(12 * blocks : ℚ) * (7 / 100)⌋₊) /
        (15000 * (12 * blocks)) ∧
      w0.frameDuration B = w1.frameDuration B / 2 ^ numerology ∧
      w2.frameDuration B = 10 * w1.frameDuration B ∧
      (24 ≤ blocks → 995 / 1000000 < w1.frameDuration B ∧ w1.frameDuration B < 9987 / 10000000) := by
  have hp : 1 ≤ 2 ^ numerology := Nat.one_le_two_pow
  have hn : 14 * 2 ^ numerology - 3 + 3 = 14 * 2 ^ numerology := by omega
  have hB : bandwidth numerology blocks = .ok (15000 * 2 ^ numerology * 12 * blocks) := by
    unfold bandwidth spacing
    rw [if_neg (by omega), Int.toNat_natCast]
    simp
  have hq : (0 : ℚ) < 2 ^ numerology := by positivity
  have hb : (0 : ℚ) < blocks := by exact_mod_cast h
  have hc : ((12 * blocks * 1 : Nat) : ℚ) = 12 * blocks := by push_cast; ring
  have d1 : (waveOf blocks (14 * 2 ^ numerology - 3) 1 default).frameDuration
      (15000 * 2 ^ numerology * 12 * blocks) =
      14 * (12 * blocks + ⌊(12 * blocks : ℚ) * (7 / 100)⌋₊) / (15000 * (12 * blocks)) := by
    rw [Wave.frameDuration, samples, hn, hc]
    push_cast
    field_simp
  refine ⟨_, _, _, _, _, _, _, hB, slot_eq blocks h, wave_eq _ _ _ default,
    subframe_eq numerology blocks h, wave_eq _ _ _ default, frame_eq numerology blocks h,
    wave_eq _ _ _ default, d1, ?_, ?_, ?_⟩
  · rw [d1, Wave.frameDuration, samples, hc]
    push_cast
    field_simp
  · rw [d1, Wave.frameDuration, samples, hn, hc]
    push_cast
    field_simp
  · intro h24
    rw [d1]
    have h24' : (24 : ℚ) ≤ blocks := by exact_mod_cast h24
    have f1 : (⌊(12 * blocks : ℚ) * (7 / 100)⌋₊ : ℚ) ≤ (12 * blocks : ℚ) * (7 / 100) :=
      Nat.floor_le (by positivity)
    have f2 : (12 * blocks : ℚ) * (7 / 100) < (⌊(12 * blocks : ℚ) * (7 / 100)⌋₊ : ℚ) + 1 :=
      Nat.lt_floor_add_one _
    constructor
    · rw [lt_div_iff₀ (by positivity)]
      nlinarith
    · rw [div_lt_iff₀ (by positivity)]
      nlinarith

/-- C124 is false of the duration of subframes: none lasts a millisecond. -/
theorem C124_duration_fails (numerology blocks : Nat) (hm : numerology ≤ 6) (h : 1 ≤ blocks)
    (default : Nat → List α) :
    ∃ B b w, bandwidth numerology blocks = .ok B ∧ subframe numerology blocks = .ok b ∧
      b.wave default = .ok w ∧ w.frameDuration B < 1 / 1000 := by
  obtain ⟨B, _, b, _, _, w, _, h1, _, _, h2, h3, _, _, h4, _⟩ :=
    C124_duration_partial numerology blocks hm h default
  refine ⟨B, b, w, h1, h2, h3, ?_⟩
  have hb : (0 : ℚ) < blocks := by exact_mod_cast h
  have f1 : (⌊(12 * blocks : ℚ) * (7 / 100)⌋₊ : ℚ) ≤ (12 * blocks : ℚ) * (7 / 100) :=
    Nat.floor_le (by positivity)
  rw [h4, div_lt_iff₀ (by positivity)]
  nlinarith

/-- C124 is false of the place of the synchronisation signals, which should be around the direct current:
it is subcarrier `6 * blocks`, and they take 64 subcarriers below but 62 above it. -/
theorem C124_centre_fails (blocks : Nat) (h : 11 ≤ blocks) (default : Nat → List α) :
    ∃ b w word, slot blocks = .ok b ∧ b.wave default = .ok w ∧ w.types[0]? = some word ∧
      w.numSubcarriers / 2 = 6 * blocks ∧
      word[6 * blocks - 64]? = some .reference ∧ word[6 * blocks + 62]? = some .reference ∧
      word[6 * blocks + 63]? = some .null := by
  obtain ⟨⟨b, w, h1, h2, h3, h4, h5⟩, _⟩ := C124_cells_partial 0 blocks h default
  obtain ⟨word, k1, k2, k3⟩ := h5 0 (by omega)
  refine ⟨b, w, word, h1, h2, k1, by omega, ?_, ?_, ?_⟩
  · rw [k3 _ (by omega)]
    unfold expected
    rw [if_pos (by simp), if_pos (by omega)]
  · rw [k3 _ (by omega)]
    unfold expected
    rw [if_pos (by simp), if_pos (by omega)]
  · rw [k3 _ (by omega)]
    unfold expected
    rw [if_pos (by simp), if_neg (by omega)]

/-- C124 is false of the broadcast channel, which should occupy 240 subcarriers around the direct
current: it occupies all of them, from 24 resource blocks on more than 240. -/
theorem C124_broadcast_fails (blocks : Nat) (h : 24 ≤ blocks) (default : Nat → List α) :
    ∃ b w word, slot blocks = .ok b ∧ b.wave default = .ok w ∧ w.types[1]? = some word ∧
      .null ∉ word ∧ 240 < word.length := by
  obtain ⟨⟨b, w, h1, h2, h3, h4, h5⟩, _⟩ := C124_cells_partial 0 blocks (by omega) default
  obtain ⟨word, k1, k2, k3⟩ := h5 1 (by omega)
  refine ⟨b, w, word, h1, h2, k1, fun hmem => ?_, by omega⟩
  obtain ⟨k, hk, he⟩ := List.getElem_of_mem hmem
  have := k3 k (by omega)
  rw [List.getElem?_eq_getElem hk, he] at this
  unfold expected at this
  rw [if_neg (by omega)] at this
  split at this <;> simp at this

/-- C124 is false of frames, in whose first slot only synchronisation signals should be: they are in the
first slot of every subframe. -/
theorem C124_once_fails (numerology blocks : Nat) (h : 11 ≤ blocks) (default : Nat → List α)
    (s : Nat) (hs : s < 10) :
    ∃ b w word, frame numerology blocks = .ok b ∧ b.wave default = .ok w ∧
      w.types[s * (14 * 2 ^ numerology)]? = some word ∧ word[6 * blocks]? = some .reference ∧
      word[0]? = some .null := by
  have hp : 1 ≤ 2 ^ numerology := Nat.one_le_two_pow
  obtain ⟨_, _, b, w, h1, h2, h3, h4, h5⟩ := C124_cells_partial numerology blocks h default
  obtain ⟨word, k1, k2, k3⟩ := h5 (s * (14 * 2 ^ numerology))
    (Nat.mul_lt_mul_of_pos_right hs (by omega))
  rw [Nat.mul_mod_left] at k3
  refine ⟨b, w, word, h1, h2, k1, ?_, ?_⟩
  · rw [k3 _ (by omega)]
    unfold expected
    rw [if_pos (by simp), if_pos (by omega)]
  · rw [k3 _ (by omega)]
    unfold expected
    rw [if_pos (by simp), if_neg (by omega)]

/-- Refused numbers: less than one resource block. -/
theorem C124_refuses (numerology blocks : Int) (h : blocks < 1) :
    slot blocks = .error .value ∧ subframe numerology blocks = .error .value ∧
      frame numerology blocks = .error .value := by
  have h1 : ∀ l, build blocks l = .error .value := fun l => by rw [build, if_pos h]
  refine ⟨h1 _, h1 _, ?_⟩
  rw [frame, subframe, h1]

theorem setTrue_length (row : List Bool) (lo hi : Int) : (setTrue row lo hi).length = row.length := by
  have hb : ∀ i, sliceBound row.length i ≤ row.length := by
    intro i
    unfold sliceBound
    split <;> omega
  have h1 := hb lo
  have h2 := hb hi
  simp only [setTrue, List.length_append, List.length_take, List.length_replicate, List.length_drop]
  omega

theorem mask_fold_length (t : ElementType) (es : List (ElementType × Int)) (row : List Bool) (i : Int) :
    (es.foldl (fun (s : List Bool × Int) e =>
      (if e.1 = t then setTrue s.1 s.2 (s.2 + e.2) else s.1, s.2 + e.2)) (row, i)).1.length =
      row.length := by
  induction es generalizing row i with
  | nil => rfl
  | cons e es ih =>
    rw [List.foldl_cons, ih]
    split
    · rw [setTrue_length]
    · rfl

/-- C124 is false of few resource blocks, of which at least 24 are asked for: all positive numbers are
accepted, and with ten or less no symbols at all can be placed, because the 127 references of the first
word do not fit. -/
theorem C124_few_fails [Zero α] (blocks : Nat) (h1 : 1 ≤ blocks) :
    ∃ b, slot blocks = .ok b ∧ b.numSubcarriers = 12 * blocks ∧
      (blocks ≤ 10 → ∀ data references : List α, 127 ≤ references.length →
        b.place data references = .error .value) := by
  refine ⟨_, slot_eq blocks h1, Nat.mul_comm _ _, fun h10 data references hr => ?_⟩
  unfold Built.place
  rw [intSections_eq]
  split
  · rfl
  · show placeRaw (blocks * 12) (Np.tile 1 (rawSections blocks 11)) data references = _
    rw [show Np.tile 1 (rawSections blocks 11) = (1, [syncResource (blocks * 12)]) ::
      [(1, [pbchResource blocks]), (1, [syncResource (blocks * 12)]), (11, [pbchResource blocks])] from rfl,
      placeRaw]
    have hw : (syncResource (blocks * 12)).numSubcarriers.toNat = 12 * blocks := by
      simp [Raw.numSubcarriers, syncResource]
      omega
    have hrefs : ((syncResource (blocks * 12)).numOf .reference).toNat = 127 := by
      simp [Raw.numOf, syncResource]
    have hmask : ((syncResource (blocks * 12)).mask .reference).length ≤ 12 * blocks := by
      rw [Raw.mask]
      simp only [hw]
      rw [show (syncResource (blocks * 12)).repetitions = 1 from rfl, Modem.tile_length,
        List.length_take, mask_fold_length, List.length_replicate]
      omega
    have hcount : ∀ l : List Bool, countRows (Np.tile 1 [l]) ≤ l.length := by
      intro l
      simp [countRows, Np.tile, List.count_le_length]
    simp only [List.foldl_cons, List.foldl_nil, List.map_cons, List.map_nil, hw, hrefs,
      Nat.zero_max, Nat.sub_self, List.replicate_zero, List.append_nil, Nat.one_mul, Nat.zero_add]
    have hlen : (references.take 127).length = 127 := by rw [List.length_take]; omega
    have herr : ∀ (m : List (List Bool)) (z : List (List α)) (v : List α), v.length = 127 →
        countRows m ≤ 120 → maskAssign m z v = .error .value := by
      intro m z v hv hm
      unfold maskAssign
      rw [if_neg (by omega)]
      match v, hv with
      | [], hv => simp at hv
      | [_], hv => simp at hv
      | _ :: _ :: _, _ => rfl
    rw [herr _ _ _ hlen (le_trans (hcount _) (by omega))]

/-- C124 is false of numerologies, of which 0 to 6 are asked for: larger ones are accepted by waveforms,
though there is no bandwidth of them, and with -1 an object is created with which nothing can be placed. -/
theorem C124_numerology_fails [Zero α] (numerology blocks : Nat) (hm : 7 ≤ numerology)
    (h : 1 ≤ blocks) :
    (∃ b, subframe numerology blocks = .ok b) ∧ bandwidth numerology blocks = .error .value ∧
    ∃ b, subframe (-1) blocks = .ok b ∧ ∀ data references : List α,
      ∃ e, b.place data references = .error e := by
  refine ⟨⟨_, subframe_eq numerology blocks h⟩, ?_, ?_⟩
  · unfold bandwidth spacing
    rw [if_pos (by omega)]
  · have hl : lastCount (-1) = .float 4 := by
      norm_num [lastCount]
    refine ⟨_, by
      unfold subframe build
      rw [hl, if_neg (by omega), if_neg (by norm_num [Count.val])], fun data references => ?_⟩
    unfold Built.place
    split
    · exact ⟨_, rfl⟩
    · exact ⟨.type, rfl⟩

/-! ### Synchronisation sequences -/

/-- Periodic correlation of a sequence of 127 symbols with itself. -/
def correlation (d : List Int) (shift : Nat) : Int :=
  ((List.range 127).map fun n => d[n]?.getD 0 * d[(n + shift) % 127]?.getD 0).sum

/-- C124, primary synchronisation signal: 127 symbols of magnitude one, whose correlation with itself is
127 without shift and -1 with all others, whatever number of symbols is asked for. -/
theorem C124_pss (requested : Option Nat) :
    (pss requested).length = 127 ∧ (∀ x ∈ pss requested, x = 1 ∨ x = -1) ∧
    ∀ shift : Nat, correlation (pss requested) shift = if 127 ∣ shift then 127 else -1 := by
  have key : ∀ s < 127, correlation (pss none) s = if s = 0 then 127 else -1 := by decide +kernel
  have hp : pss requested = pss none := rfl
  rw [hp]
  refine ⟨by decide +kernel, by decide +kernel, fun shift => ?_⟩
  have hs : correlation (pss none) shift = correlation (pss none) (shift % 127) := by
    unfold correlation
    congr 1
    refine List.map_congr_left fun n _ => ?_
    rw [Nat.add_mod_mod]
  rw [hs, key _ (Nat.mod_lt _ (by omega))]
  by_cases hd : 127 ∣ shift
  · rw [if_pos hd, if_pos (Nat.mod_eq_zero_of_dvd hd)]
  · rw [if_neg hd, if_neg (fun h0 => hd (Nat.dvd_of_mod_eq_zero h0))]

/-- The sequence `x` of 3GPP TS 38.211, section 7.4.2.2.1: `x(6), …, x(0)` are 1, 1, 1, 0, 1, 1, 0 and
`x(i + 7) = (x(i + 4) + x(i)) mod 2`. -/
structure StandardPss (x : Nat → Nat) : Prop where
  first : [x 6, x 5, x 4, x 3, x 2, x 1, x 0] = [1, 1, 1, 0, 1, 1, 0]
  next : ∀ i, x (i + 7) = (x (i + 4) + x i) % 2

/-- C124, primary synchronisation signal: the symbols obey the recurrence of the standard, and are the standard's
sequence shifted cyclically by 95 symbols. -/
theorem C124_pss_recurrence (requested : Option Nat) (x : Nat → Nat) (hx : StandardPss x) :
    (∀ n < 120, (pss requested)[n + 7]?.getD 0 =
      (pss requested)[n + 4]?.getD 0 * (pss requested)[n]?.getD 0) ∧
    ∀ n < 127, (pss requested)[n]? = some (1 - 2 * (x ((n + 95) % 127) : Int)) := by
  have hp : pss requested = pss none := rfl
  rw [hp]
  have hd : ∀ n < 120, (pss none)[n + 7]?.getD 0 = (pss none)[n + 4]?.getD 0 * (pss none)[n]?.getD 0 := by
    decide +kernel
  refine ⟨hd, ?_⟩
  have h0 := hx.first
  simp only [List.cons.injEq, and_true] at h0
  obtain ⟨h6, h5, h4, h3, h2, h1, h0⟩ := h0
  have hstep : ∀ i < 120, (1 - (pss none)[(i + 7 + 32) % 127]?.getD 0) / 2 =
      ((1 - (pss none)[(i + 4 + 32) % 127]?.getD 0) / 2 + (1 - (pss none)[(i + 32) % 127]?.getD 0) / 2) % 2 := by
    decide +kernel
  have key : ∀ i < 127, (x i : Int) = (1 - (pss none)[(i + 32) % 127]?.getD 0) / 2 := by
    intro i
    induction i using Nat.strongRecOn with
    | ind i ih =>
      intro hi
      by_cases h7 : i < 7
      · interval_cases i
        · rw [h0]; decide +kernel
        · rw [h1]; decide +kernel
        · rw [h2]; decide +kernel
        · rw [h3]; decide +kernel
        · rw [h4]; decide +kernel
        · rw [h5]; decide +kernel
        · rw [h6]; decide +kernel
      · obtain ⟨j, rfl⟩ : ∃ j, i = j + 7 := ⟨i - 7, by omega⟩
        rw [hx.next, hstep j (by omega), ← ih (j + 4) (by omega) (by omega), ← ih j (by omega) (by omega)]
        push_cast
        rfl
  have hval : ∀ n < 127, (pss none)[n]? =
      some (1 - 2 * ((1 - (pss none)[((n + 95) % 127 + 32) % 127]?.getD 0) / 2)) := by
    decide +kernel
  intro n hn
  rw [key _ (Nat.mod_lt _ (by omega)), ← hval n hn]

/-- C124 is false of the primary synchronisation signal: it is that of no cell. For each of the three physical layer
identities, the sequence of the standard differs; the initial values of the register are filled in in reverse. -/
theorem C124_pss_standard_fails (requested : Option Nat) (x : Nat → Nat) (hx : StandardPss x) (identity : Nat)
    (hi : identity < 3) :
    ∃ n < 127, (pss requested)[n]? ≠ some (1 - 2 * (x ((n + 43 * identity) % 127) : Int)) := by
  have hp : pss requested = pss none := rfl
  rw [hp]
  have h0 := hx.first
  simp only [List.cons.injEq, and_true] at h0
  obtain ⟨h6, h5, h4, h3, h2, h1, h0⟩ := h0
  interval_cases identity
  · refine ⟨0, by omega, ?_⟩
    rw [show (0 + 43 * 0) % 127 = 0 from rfl, h0]; decide +kernel
  · refine ⟨85, by omega, ?_⟩
    rw [show (85 + 43 * 1) % 127 = 1 from rfl, h1]; decide +kernel
  · refine ⟨44, by omega, ?_⟩
    rw [show (44 + 43 * 2) % 127 = 3 from rfl, h3]; decide +kernel

/-- The sequence of the standard exists. -/
def standardPss : Nat → Nat
  | 0 => 0 | 1 => 1 | 2 => 1 | 3 => 0 | 4 => 1 | 5 => 1 | 6 => 1
  | i + 7 => (standardPss (i + 4) + standardPss i) % 2

example : StandardPss standardPss := ⟨by decide +kernel, fun i => by rw [standardPss]⟩

/-- C124 is false of the primary synchronisation signal as pilot of the waveforms: they have twelve
subcarriers per resource block, never 127, and creating the pilot raises `ValueError`. -/
theorem C124_pss_fails (blocks n c : Nat) :
    pilotRow (instanceOf blocks n c).numSubcarriers (fun k => .ok (pss k)) = .error .value := by
  unfold pilotRow
  have hl : ∀ k, (pss k).length = 127 := fun k => (C124_pss k).1
  simp only [hl]
  rw [if_neg (by show 127 ≠ blocks * 12; omega)]
  have := hl (some (instanceOf blocks n c).numSubcarriers)
  match hs : pss (some (instanceOf blocks n c).numSubcarriers) with
  | [] => rfl
  | [_] => rw [hs] at this; simp at this
  | _ :: _ :: _ => rfl

/-- C124 is false of the secondary synchronisation signal: the sequence is never obtained, as 127 doubles
are no complex numbers; and the numbers computed before are not of magnitude one. -/
theorem C124_sss_fails (requested : Option Nat) :
    sss requested = .error .value ∧ 121 ∈ sssValues := by
  have hl : sssValues.length = 127 := by simp [sssValues]
  constructor
  · rw [sss, viewComplex, hl]
    rfl
  · decide +kernel

example : ∃ b, slot 24 = .ok b ∧ b.numSubcarriers = 288 ∧ b.numOf .data = 2592 ∧
    b.numOf .reference = 1118 := by
  refine ⟨_, slot_eq 24 (by omega), rfl, ?_, ?_⟩
  · rw [numOf_data]; norm_num
  · decide +kernel

example : ∃ b, subframe 2 24 = .ok b ∧ b.numOf .data = 54 * 216 := by
  refine ⟨_, subframe_eq 2 24 (by omega), ?_⟩
  rw [numOf_data]; norm_num

example : subframe (-2) 24 = .error .value := by
  have hl : lastCount (-2) = .float (1 / 2) := by
    rw [lastCount, if_neg (by decide)]
    congr 1
    show (14 : ℚ) / 2 ^ 2 - 3 = 1 / 2
    norm_num
  rw [subframe, build, hl, if_neg (by decide), if_pos (by norm_num [Count.val])]

example : bandwidth 1 24 = .ok 8640000 := by norm_num [bandwidth, spacing]

example : (pss none).take 8 = [-1, -1, -1, 1, -1, -1, 1, 1] := by decide +kernel

end Verif.Nr
