import Verif.Np
import Mathlib.Data.Rat.Floor
import Mathlib.Algebra.Order.Floor.Semiring
import Mathlib.Tactic.Ring

/-!
# Resource grids of orthogonal waveforms

Model of the resource grid in `hermespy/modem/waveforms/orthogonal/waveform.py`: resources, symbol,
guard and pilot sections, and how data and reference symbols are placed on and picked from the grid.
A grid is the list of its words (rows), a word the list of its subcarrier symbols.
-/

namespace Verif.Modem

/-- `ElementType`. `waveforms/orthogonal/waveform.py` 39-49. -/
inductive ElementType | reference | data | null
  deriving DecidableEq, Repr

/-- `PrefixType`. `waveforms/orthogonal/waveform.py` 52-62. -/
inductive PrefixType | cyclic | zeropad | none
  deriving DecidableEq, Repr

/-- `GridElement`; negative repetitions (not rejected by the code) are not modelled.
`waveforms/orthogonal/waveform.py` 65-78. -/
structure Element where
  type : ElementType
  repetitions : Nat
  deriving DecidableEq, Repr

/-- `GridResource`; the setters guarantee `1 ≤ repetitions` and `0 ≤ prefixRatio`. Ratios are exact.
`waveforms/orthogonal/waveform.py` 102-170. -/
structure Resource where
  repetitions : Nat
  prefixType : PrefixType
  prefixRatio : ℚ
  elements : List Element

/-- `GridResource.num_subcarriers`. `waveforms/orthogonal/waveform.py` 172-180. -/
def Resource.numSubcarriers (r : Resource) : Nat :=
  r.repetitions * r.elements.foldl (fun num e => num + e.repetitions) 0

/-- `GridResource.num_symbols` (for `data`) and `num_references` (for `reference`).
`waveforms/orthogonal/waveform.py` 182-202. -/
def Resource.numOf (r : Resource) (t : ElementType) : Nat :=
  r.repetitions * r.elements.foldl (fun num e => if e.type = t then num + e.repetitions else num) 0

/-- Row `t` of `GridResource.mask`: the elements' runs one after the other, tiled.
`waveforms/orthogonal/waveform.py` 204-222. -/
def Resource.mask (r : Resource) (t : ElementType) : List Bool :=
  Np.tile r.repetitions
    (r.elements.foldl (fun row e => row ++ List.replicate e.repetitions (decide (e.type = t))) [])

/-- `GridSection` and its subclasses. Patterns hold the resources themselves instead of indices into
the waveform's resource list (an invalid index raises `IndexError` in the code). The elements of a pilot
section are a `Symbols` object: its number of symbols per block and its flattened content.
`waveforms/orthogonal/waveform.py` 246-319, 463-487, 653-687, 719-760. -/
inductive Section (α : Type)
  | symbols (repetitions : Nat) (pattern : List Resource) (sampleOffset : Int)
  | guard (repetitions : Nat) (duration : ℚ)
  | pilot (elements : Option (Nat × List α))

/-- An `OrthogonalWaveform`: subcarriers, grid structure, optional pilot section preceding the grid
(`some elements`), and the pseudo-random sequence used by pilot sections without elements (a fixed
random stream mapped to symbols, same file, 836-842). `waveforms/orthogonal/waveform.py` 950-995. -/
structure Wave (α : Type) where
  numSubcarriers : Nat
  structure_ : List (Section α)
  pilotSection : Option (Option (Nat × List α))
  defaultPilot : Nat → List α

variable {α : Type}

/-- `num_symbols` of a section. `waveforms/orthogonal/waveform.py` 321-325, 489-496, 766-768. -/
def Section.numSymbols : Section α → Nat
  | .symbols reps pattern _ => reps * pattern.foldl (fun num r => num + r.numOf .data) 0
  | .guard _ _ => 0
  | .pilot _ => 0

/-- `num_references` of a section on a waveform of `N` subcarriers.
`waveforms/orthogonal/waveform.py` 327-331, 498-505, 778-782. -/
def Section.numReferences (N : Nat) : Section α → Nat
  | .symbols reps pattern _ => reps * pattern.foldl (fun num r => num + r.numOf .reference) 0
  | .guard _ _ => 0
  | .pilot elements => if elements.isSome then 0 else N

/-- `num_words` of a section. `waveforms/orthogonal/waveform.py` 333-337, 507-509, 770-772. -/
def Section.numWords : Section α → Nat
  | .symbols reps pattern _ => reps * pattern.length
  | .guard _ _ => 0
  | .pilot _ => 1

/-- `num_subcarriers` of a section. `waveforms/orthogonal/waveform.py` 339-343, 511-518, 774-776. -/
def Section.numSubcarriers (N : Nat) : Section α → Nat
  | .symbols _ pattern _ => pattern.foldl (fun num r => max num r.numSubcarriers) 0
  | .guard _ _ => 0
  | .pilot _ => N

/-- Layer `t` of a section's `resource_mask`, a list of words.
`waveforms/orthogonal/waveform.py` 345-347, 616-625, 784-790. -/
def Section.resourceMask (N : Nat) (t : ElementType) : Section α → List (List Bool)
  | s@(.symbols reps pattern _) =>
    Np.tile reps (pattern.map fun r =>
      r.mask t ++ List.replicate (s.numSubcarriers N - r.numSubcarriers) false)
  | .guard _ _ => []
  | .pilot _ => [List.replicate N (decide (t = .reference))]

/-- `row[mask] = values` for a row: selected positions take the values in turn. -/
def scatter : List Bool → List α → List α → List α
  | true :: m, _ :: g, v :: vs => v :: scatter m g vs
  | false :: m, x :: g, vs => x :: scatter m g vs
  | _, g, _ => g

/-- `grid[mask] = values` for a two-dimensional mask: numpy runs through it row by row. -/
def scatterRows : List (List Bool) → List (List α) → List α → List (List α)
  | m :: ms, g :: gs, vs => scatter m g vs :: scatterRows ms gs (vs.drop (m.count true))
  | _, gs, _ => gs

/-- `row[mask]`. -/
def gather : List Bool → List α → List α
  | true :: m, x :: g => x :: gather m g
  | false :: m, _ :: g => gather m g
  | _, _ => []

/-- `grid[mask]`, row by row. -/
def gatherRows : List (List Bool) → List (List α) → List α
  | m :: ms, g :: gs => gather m g ++ gatherRows ms gs
  | _, _ => []

/-- Number of selected cells. -/
def countRows (mask : List (List Bool)) : Nat := (mask.map (·.count true)).sum

/-- `grid[mask] = values` with numpy's shape check: as many values as selected cells, or a single value
which is broadcast. -/
def maskAssign (mask : List (List Bool)) (grid : List (List α)) (values : List α) :
    Except PyErr (List (List α)) :=
  if values.length = countRows mask then .ok (scatterRows mask grid values)
  else match values with
    | [v] => .ok (scatterRows mask grid (List.replicate (countRows mask) v))
    | _ => .error .value

/-- `PilotSection._pilot_sequence(num_symbols)`. `num_repetitions = ceil(n / num_symbols)`.
`waveforms/orthogonal/waveform.py` 822-848. -/
def pilotSequence (default : Nat → List α) (elements : Option (Nat × List α)) (n : Nat) : List α :=
  match elements with
  | none => (default n).take n
  | some (perBlock, flat) => (Np.tile ((n + perBlock - 1) / perBlock) flat).take n

/-- Reference symbols a section places: the given ones; `PilotSection.place_symbols` replaces them by its
own sequence. `waveforms/orthogonal/waveform.py` 850-853. -/
def Section.ownReferences (w : Wave α) (s : Section α) (references : List α) : List α :=
  match s with
  | .pilot elements => pilotSequence w.defaultPilot elements w.numSubcarriers
  | _ => references

/-- `GridSection.place_symbols`, and `PilotSection.place_symbols`.
`waveforms/orthogonal/waveform.py` 361-379, 850-853. -/
def Section.placeSymbols [Zero α] (w : Wave α) (s : Section α) (data references : List α) :
    Except PyErr (List (List α)) :=
  let N := w.numSubcarriers
  let zeros := List.replicate s.numWords (List.replicate (s.numSubcarriers N) (0 : α))
  match maskAssign (s.resourceMask N .reference) zeros (s.ownReferences w references) with
  | .error e => .error e
  | .ok grid => maskAssign (s.resourceMask N .data) grid data

/-- `GridSection.pick_symbols` on one layer (stream) of `num_words` rows. numpy refuses a mask whose
shape differs from the selected part. `waveforms/orthogonal/waveform.py` 381-406. -/
def Section.pickSymbols (N : Nat) (s : Section α) (grid : List (List α)) : Except PyErr (List α) :=
  if grid.length = s.numWords ∧ ∀ row ∈ grid, s.numSubcarriers N ≤ row.length then
    .ok (gatherRows (s.resourceMask N .data) (grid.map (·.take (s.numSubcarriers N))))
  else .error .index

/-- `OrthogonalWaveform.num_data_symbols`. `waveforms/orthogonal/waveform.py` 1152-1158. -/
def Wave.numDataSymbols (w : Wave α) : Nat :=
  w.structure_.foldl (fun num s => num + s.numSymbols) 0

/-- `OrthogonalWaveform.references_per_frame`. `waveforms/orthogonal/waveform.py` 1170-1178. -/
def Wave.referencesPerFrame (w : Wave α) : Nat :=
  w.structure_.foldl (fun num s => num + s.numReferences w.numSubcarriers) 0

/-- `OrthogonalWaveform.words_per_frame`. `waveforms/orthogonal/waveform.py` 1160-1168. -/
def Wave.wordsPerFrame (w : Wave α) : Nat :=
  w.structure_.foldl (fun num s => num + s.numWords) 0

/-- The loop of `place`: every section takes its share of data and reference symbols and fills its
words; remaining subcarriers stay zero. A section wider than the waveform does not fit (`ValueError`;
numpy would broadcast a section of one subcarrier into none, which needs a waveform without
subcarriers). `waveforms/orthogonal/waveform.py` 1239-1256. -/
def placeLoop [Zero α] (w : Wave α) : List (Section α) → List α → List α →
    Except PyErr (List (List α))
  | [], _, _ => .ok []
  | s :: ss, data, references =>
    let N := w.numSubcarriers
    match s.placeSymbols w (data.take s.numSymbols) (references.take (s.numReferences N)) with
    | .error e => .error e
    | .ok rows =>
      if s.numSubcarriers N > N then .error .value
      else match placeLoop w ss (data.drop s.numSymbols) (references.drop (s.numReferences N)) with
        | .error e => .error e
        | .ok rest =>
          .ok (rows.map (fun row => row ++ List.replicate (N - s.numSubcarriers N) 0) ++ rest)

/-- `OrthogonalWaveform.place`; `references` is `pilot_symbols(references_per_frame)`, which returns
exactly that many symbols. `waveforms/orthogonal/waveform.py` 1221-1258. -/
def Wave.place [Zero α] (w : Wave α) (data references : List α) : Except PyErr (List (List α)) :=
  if data.length ≠ w.numDataSymbols then .error .value
  else placeLoop w w.structure_ data references

/-- The loop of `pick` on one layer. `waveforms/orthogonal/waveform.py` 1277-1288. -/
def pickLoop (N : Nat) : List (Section α) → List (List α) → Except PyErr (List α)
  | [], _ => .ok []
  | s :: ss, grid =>
    match s.pickSymbols N (grid.take s.numWords) with
    | .error e => .error e
    | .ok picked =>
      match pickLoop N ss (grid.drop s.numWords) with
      | .error e => .error e
      | .ok rest => .ok (picked ++ rest)

/-- `OrthogonalWaveform.pick` on one layer: a stream of symbols, or the states of one pair of streams.
`waveforms/orthogonal/waveform.py` 1260-1290. -/
def Wave.pick (w : Wave α) (grid : List (List α)) : Except PyErr (List α) :=
  pickLoop w.numSubcarriers w.structure_ grid

/-- `OrthogonalWaveform.pick` on all streams and all their states: every layer is picked with the same
masks. `waveforms/orthogonal/waveform.py` 1260-1290. -/
def Wave.pickStated (w : Wave α) (streams : List (List (List α)))
    (states : List (List (List (List α)))) : Except PyErr (List (List α) × List (List (List α))) :=
  match streams.mapM w.pick, states.mapM (fun rx => rx.mapM w.pick) with
  | .ok s, .ok st => .ok (s, st)
  | .error e, _ => .error e
  | _, .error e => .error e

/-! ### What the grid is, independently of masks -/

/-- Types of the subcarriers of a resource, as a user reads the configuration. -/
def Resource.types (r : Resource) : List ElementType :=
  (List.replicate r.repetitions (r.elements.flatMap fun e => List.replicate e.repetitions e.type)).flatten

/-- Types of the words of a section. -/
def Section.types (N : Nat) : Section α → List (List ElementType)
  | .symbols reps pattern _ => (List.replicate reps (pattern.map Resource.types)).flatten
  | .guard _ _ => []
  | .pilot _ => [List.replicate N .reference]

/-- Types of the words of a frame. -/
def Wave.types (w : Wave α) : List (List ElementType) :=
  w.structure_.flatMap (·.types w.numSubcarriers)

/-- Contents of the cells of a word having a type. -/
def cellsOf (t : ElementType) : List ElementType → List α → List α
  | u :: us, x :: xs => if u = t then x :: cellsOf t us xs else cellsOf t us xs
  | _, _ => []

/-- Contents of the cells of a grid having a type, word by word. -/
def cellsOfGrid (t : ElementType) : List (List ElementType) → List (List α) → List α
  | u :: us, x :: xs => cellsOf t u x ++ cellsOfGrid t us xs
  | _, _ => []

/-- No resource needs more subcarriers than there are, and pilot sections have enough symbols. -/
def Wave.Fits (w : Wave α) : Prop :=
  (∀ s ∈ w.structure_, s.numSubcarriers w.numSubcarriers ≤ w.numSubcarriers) ∧
  ∀ e : Option (Nat × List α), Section.pilot e ∈ w.structure_ →
    (pilotSequence w.defaultPilot e w.numSubcarriers).length = w.numSubcarriers

/-! ### Lemmas -/

theorem foldl_add_acc {β : Type} (f : β → Nat) (l : List β) (a : Nat) :
    l.foldl (fun num b => num + f b) a = a + (l.map f).sum := by
  induction l generalizing a with
  | nil => simp
  | cons b l ih => rw [List.foldl_cons, ih]; simp; omega

theorem foldl_max_le {β : Type} (f : β → Nat) (l : List β) (a : Nat) :
    a ≤ l.foldl (fun num b => max num (f b)) a ∧
      ∀ b ∈ l, f b ≤ l.foldl (fun num b => max num (f b)) a := by
  induction l generalizing a with
  | nil => simp
  | cons b l ih =>
    rw [List.foldl_cons]
    obtain ⟨h1, h2⟩ := ih (max a (f b))
    refine ⟨by omega, ?_⟩
    intro c hc
    rcases List.mem_cons.1 hc with rfl | hc
    · omega
    · exact h2 c hc

theorem foldl_append_acc {β γ : Type} (f : β → List γ) (l : List β) (a : List γ) :
    l.foldl (fun row b => row ++ f b) a = a ++ l.flatMap f := by
  induction l generalizing a with
  | nil => simp
  | cons b l ih => rw [List.foldl_cons, ih]; simp

theorem Resource.mask_eq (r : Resource) (t : ElementType) :
    r.mask t = r.types.map (fun u => decide (u = t)) := by
  unfold Resource.mask Resource.types Np.tile
  rw [foldl_append_acc, List.nil_append, List.map_flatten, List.map_replicate, List.map_flatMap]
  simp

theorem Resource.types_length (r : Resource) : r.types.length = r.numSubcarriers := by
  unfold Resource.types Resource.numSubcarriers
  rw [foldl_add_acc]
  simp [List.length_flatten, List.length_flatMap]

theorem Resource.types_count (r : Resource) (t : ElementType) : r.types.count t = r.numOf t := by
  unfold Resource.types Resource.numOf
  have h : ∀ (l : List Element) (a : Nat),
      l.foldl (fun num e => if e.type = t then num + e.repetitions else num) a =
        a + (l.flatMap fun e => List.replicate e.repetitions e.type).count t := by
    intro l
    induction l with
    | nil => simp
    | cons e l ih =>
      intro a
      rw [List.foldl_cons, ih, List.flatMap_cons, List.count_append, List.count_replicate]
      by_cases he : e.type = t
      · simp [he]; omega
      · simp [he]
  rw [h, Nat.zero_add]
  induction r.repetitions with
  | zero => simp
  | succ n ih => rw [List.replicate_succ, List.flatten_cons, List.count_append, ih]; ring

/-- A mask row: the types with padding. -/
theorem Section.resourceMask_eq (N : Nat) (t : ElementType) (s : Section α) :
    s.resourceMask N t = (s.types N).map (fun u => u.map (fun u => decide (u = t)) ++
      List.replicate (s.numSubcarriers N - u.length) false) := by
  cases s with
  | guard reps d => rfl
  | pilot e =>
    simp only [Section.resourceMask, Section.types, Section.numSubcarriers, List.map_cons,
      List.map_nil, List.length_replicate, Nat.sub_self, List.replicate_zero, List.append_nil,
      List.map_replicate]
    simp [eq_comm]
  | symbols reps pattern off =>
    simp only [Section.resourceMask, Section.types, Np.tile]
    rw [List.map_flatten, List.map_replicate, List.map_map]
    congr 2
    apply List.map_congr_left
    intro r _
    simp [Resource.mask_eq, Resource.types_length]

theorem Section.types_length (N : Nat) (s : Section α) : (s.types N).length = s.numWords := by
  cases s with
  | guard => rfl
  | pilot => rfl
  | symbols reps pattern off => simp [Section.types, Section.numWords, List.length_flatten]

theorem Section.types_row_le (N : Nat) (s : Section α) :
    ∀ u ∈ s.types N, u.length ≤ s.numSubcarriers N := by
  intro u hu
  cases s with
  | guard => simp [Section.types] at hu
  | pilot =>
    simp only [Section.types, List.mem_singleton] at hu
    simp [hu, Section.numSubcarriers]
  | symbols reps pattern off =>
    simp only [Section.types, List.mem_flatten, List.mem_replicate] at hu
    obtain ⟨l, ⟨_, rfl⟩, hu⟩ := hu
    obtain ⟨r, hr, rfl⟩ := List.mem_map.1 hu
    rw [Resource.types_length]
    exact (foldl_max_le Resource.numSubcarriers pattern 0).2 r hr

/-- Number of cells of a type in a section. -/
def Section.numOf (N : Nat) (t : ElementType) (s : Section α) : Nat :=
  ((s.types N).map (·.count t)).sum

theorem sum_map_replicate_flatten {β : Type} (f : β → Nat) (n : Nat) (l : List β) :
    ((List.replicate n l).flatten.map f).sum = n * (l.map f).sum := by
  induction n with
  | zero => simp
  | succ n ih => rw [List.replicate_succ, List.flatten_cons, List.map_append, List.sum_append, ih]; ring

theorem Section.numSymbols_eq (N : Nat) (s : Section α) : s.numSymbols = s.numOf N .data := by
  cases s with
  | guard => rfl
  | pilot => simp [Section.numSymbols, Section.numOf, Section.types, List.count_replicate]
  | symbols reps pattern off =>
    simp only [Section.numSymbols, Section.numOf, Section.types]
    rw [sum_map_replicate_flatten, foldl_add_acc, List.map_map, Nat.zero_add]
    congr 3
    funext r
    simp [Resource.types_count]

theorem Section.numReferences_symbols (N reps : Nat) (pattern : List Resource) (off : Int) :
    (Section.symbols reps pattern off : Section α).numReferences N =
      (Section.symbols reps pattern off : Section α).numOf N .reference := by
  simp only [Section.numReferences, Section.numOf, Section.types]
  rw [sum_map_replicate_flatten, foldl_add_acc, List.map_map, Nat.zero_add]
  congr 3
  funext r
  simp [Resource.types_count]

/-- Mask row of a word of types, padded to a width. -/
def maskRow (t : ElementType) (width : Nat) (u : List ElementType) : List Bool :=
  u.map (fun u => decide (u = t)) ++ List.replicate (width - u.length) false

theorem maskRow_count (t : ElementType) (width : Nat) (u : List ElementType) :
    (maskRow t width u).count true = u.count t := by
  unfold maskRow
  rw [List.count_append, List.count_replicate]
  simp only [Bool.false_eq_true, beq_iff_eq, if_false, Nat.add_zero]
  induction u with
  | nil => simp
  | cons a u ih =>
    rw [List.map_cons, List.count_cons, List.count_cons, ih]
    simp

theorem gather_false (n : Nat) (g : List α) : gather (List.replicate n false) g = [] := by
  induction n generalizing g with
  | zero => cases g <;> rfl
  | succ n ih =>
    cases g with
    | nil => rfl
    | cons x g => rw [List.replicate_succ, gather, ih]

theorem gather_maskRow (t : ElementType) (width : Nat) (u : List ElementType) (g : List α) :
    gather (maskRow t width u) g = cellsOf t u g := by
  unfold maskRow
  generalize width - u.length = n
  induction u generalizing g with
  | nil =>
    rw [List.map_nil, List.nil_append, gather_false]
    cases g <;> rfl
  | cons a u ih =>
    cases g with
    | nil => simp only [List.map_cons, List.cons_append]; cases decide (a = t) <;> rfl
    | cons x g =>
      rw [List.map_cons, List.cons_append]
      by_cases h : a = t
      · rw [decide_eq_true h, gather, cellsOf, if_pos h, ih]
      · rw [decide_eq_false h, gather, cellsOf, if_neg h, ih]

theorem gatherRows_eq (t : ElementType) (width : Nat) (us : List (List ElementType))
    (g : List (List α)) : gatherRows (us.map (maskRow t width)) g = cellsOfGrid t us g := by
  induction us generalizing g with
  | nil => cases g <;> rfl
  | cons u us ih =>
    cases g with
    | nil => rfl
    | cons x g => rw [List.map_cons, gatherRows, cellsOfGrid, gather_maskRow, ih]

theorem countRows_eq (t : ElementType) (width : Nat) (us : List (List ElementType)) :
    countRows (us.map (maskRow t width)) = (us.map (·.count t)).sum := by
  unfold countRows
  rw [List.map_map]
  congr 2
  funext u
  exact maskRow_count t width u

theorem scatter_length (m : List Bool) (g vs : List α) : (scatter m g vs).length = g.length := by
  induction m generalizing g vs with
  | nil => cases g <;> rfl
  | cons b m ih =>
    cases g with
    | nil => cases b <;> cases vs <;> rfl
    | cons x g =>
      cases b with
      | false => simp [scatter, ih]
      | true => cases vs with
        | nil => rfl
        | cons v vs => simp [scatter, ih]

/-- Scattering to the cells of a type, read off at any type. -/
theorem cells_scatter (t t' : ElementType) (n : Nat) (u : List ElementType) (g vs : List α)
    (hl : u.length ≤ g.length) (hv : u.count t ≤ vs.length) :
    cellsOf t' u (scatter (u.map (fun u => decide (u = t)) ++ List.replicate n false) g vs) =
      if t' = t then vs.take (u.count t) else cellsOf t' u g := by
  induction u generalizing g vs with
  | nil =>
    have : ∀ g : List α, cellsOf t' [] g = [] := by intro g; cases g <;> rfl
    simp [this]
  | cons a u ih =>
    cases g with
    | nil => simp at hl
    | cons x g =>
      rw [List.map_cons, List.cons_append]
      by_cases h : a = t
      · rw [decide_eq_true h]
        cases vs with
        | nil => simp [h] at hv
        | cons v vs =>
          rw [scatter, cellsOf, cellsOf, ih g vs (by simpa using hl) (by simp [h] at hv; omega)]
          subst h
          by_cases ht : t' = a
          · subst ht; simp
          · rw [if_neg (fun e => ht e.symm), if_neg ht, if_neg ht, if_neg (fun e => ht e.symm)]
      · rw [decide_eq_false h, scatter, cellsOf, cellsOf,
          ih g vs (by simpa using hl) (by simpa [h] using hv)]
        by_cases ht : t' = t
        · subst ht; simp [h]
        · rw [if_neg ht, if_neg ht]

theorem scatterRows_length (ms : List (List Bool)) (gs : List (List α)) (vs : List α) :
    (scatterRows ms gs vs).length = gs.length := by
  induction ms generalizing gs vs with
  | nil => cases gs <;> rfl
  | cons m ms ih =>
    cases gs with
    | nil => rfl
    | cons g gs => simp [scatterRows, ih]

theorem scatterRows_row (width : Nat) (ms : List (List Bool)) (gs : List (List α)) (vs : List α)
    (h : ∀ g ∈ gs, g.length = width) : ∀ g ∈ scatterRows ms gs vs, g.length = width := by
  induction ms generalizing gs vs with
  | nil => cases gs <;> simpa [scatterRows] using h
  | cons m ms ih =>
    cases gs with
    | nil => simpa [scatterRows] using h
    | cons g gs =>
      intro r hr
      rw [scatterRows] at hr
      rcases List.mem_cons.1 hr with rfl | hr
      · rw [scatter_length]; exact h g (by simp)
      · exact ih gs _ (fun g hg => h g (by simp [hg])) r hr

theorem cells_scatterRows (t t' : ElementType) (width : Nat) (us : List (List ElementType))
    (gs : List (List α)) (vs : List α) (hlen : us.length = gs.length)
    (hrow : ∀ g ∈ gs, g.length = width) (hu : ∀ u ∈ us, u.length ≤ width)
    (hv : (us.map (·.count t)).sum = vs.length) :
    cellsOfGrid t' us (scatterRows (us.map (maskRow t width)) gs vs) =
      if t' = t then vs else cellsOfGrid t' us gs := by
  induction us generalizing gs vs with
  | nil =>
    have h0 : vs = [] := by
      apply List.eq_nil_of_length_eq_zero
      simpa using hv.symm
    subst h0
    cases gs with
    | nil => simp [cellsOfGrid, scatterRows]
    | cons => simp at hlen
  | cons u us ih =>
    cases gs with
    | nil => simp at hlen
    | cons g gs =>
      rw [List.map_cons, List.sum_cons] at hv
      rw [List.map_cons, scatterRows, cellsOfGrid, cellsOfGrid]
      rw [show scatter (maskRow t width u) g vs = scatter (u.map (fun u => decide (u = t)) ++
        List.replicate (width - u.length) false) g vs from rfl]
      rw [cells_scatter t t' _ u g vs (by rw [hrow g (by simp)]; exact hu u (by simp)) (by omega),
        maskRow_count, ih gs _ (by simpa using hlen) (fun g hg => hrow g (by simp [hg]))
          (fun u h => hu u (by simp [h])) (by rw [List.length_drop]; omega)]
      by_cases ht : t' = t
      · simp [ht]
      · simp [ht]

theorem cellsOf_zeros [Zero α] (t : ElementType) (u : List ElementType) (n : Nat)
    (h : u.length ≤ n) : cellsOf t u (List.replicate n (0 : α)) = List.replicate (u.count t) 0 := by
  induction u generalizing n with
  | nil => cases n <;> rfl
  | cons a u ih =>
    cases n with
    | zero => simp at h
    | succ n =>
      rw [List.replicate_succ, cellsOf, ih n (by simpa using h), List.count_cons]
      by_cases ha : a = t
      · simp [ha, List.replicate_succ]
      · simp [ha]

theorem cellsOfGrid_zeros [Zero α] (t : ElementType) (us : List (List ElementType)) (n : Nat)
    (h : ∀ u ∈ us, u.length ≤ n) :
    cellsOfGrid t us (List.replicate us.length (List.replicate n (0 : α))) =
      List.replicate (us.map (·.count t)).sum 0 := by
  induction us with
  | nil => rfl
  | cons u us ih =>
    rw [List.length_cons, List.replicate_succ, cellsOfGrid, cellsOf_zeros t u n (h u (by simp)),
      ih (fun u hu => h u (by simp [hu])), List.map_cons, List.sum_cons, List.replicate_add]

theorem cellsOf_append (t : ElementType) (u : List ElementType) (x y : List α)
    (h : u.length ≤ x.length) : cellsOf t u (x ++ y) = cellsOf t u x := by
  induction u generalizing x with
  | nil => cases x <;> cases y <;> rfl
  | cons a u ih =>
    cases x with
    | nil => simp at h
    | cons b x => rw [List.cons_append, cellsOf, cellsOf, ih x (by simpa using h)]

theorem cellsOfGrid_map_append (t : ElementType) (us : List (List ElementType))
    (g : List (List α)) (pad : List α) (hr : ∀ u ∈ us, ∀ x ∈ g, u.length ≤ x.length) :
    cellsOfGrid t us (g.map (· ++ pad)) = cellsOfGrid t us g := by
  induction us generalizing g with
  | nil => cases g <;> rfl
  | cons u us ih =>
    cases g with
    | nil => rfl
    | cons x g =>
      rw [List.map_cons, cellsOfGrid, cellsOfGrid,
        cellsOf_append t u x pad (hr u (by simp) x (by simp)),
        ih g (fun u hu x hx => hr u (by simp [hu]) x (by simp [hx]))]

theorem cellsOfGrid_append (t : ElementType) (us vs : List (List ElementType))
    (g h : List (List α)) (hl : us.length = g.length) :
    cellsOfGrid t (us ++ vs) (g ++ h) = cellsOfGrid t us g ++ cellsOfGrid t vs h := by
  induction us generalizing g with
  | nil =>
    cases g with
    | nil => cases vs <;> cases h <;> rfl
    | cons => simp at hl
  | cons u us ih =>
    cases g with
    | nil => simp at hl
    | cons x g =>
      rw [List.cons_append, List.cons_append, cellsOfGrid, cellsOfGrid, ih g (by simpa using hl),
        List.append_assoc]

theorem cellsOf_take (t : ElementType) (u : List ElementType) (x : List α) (n : Nat)
    (h : u.length ≤ n) : cellsOf t u (x.take n) = cellsOf t u x := by
  induction u generalizing x n with
  | nil => cases x <;> cases n <;> rfl
  | cons a u ih =>
    cases n with
    | zero => simp at h
    | succ n =>
      cases x with
      | nil => rfl
      | cons b x => rw [List.take_succ_cons, cellsOf, cellsOf, ih x n (by simpa using h)]

theorem cellsOfGrid_take (t : ElementType) (us : List (List ElementType)) (g : List (List α))
    (n : Nat) (h : ∀ u ∈ us, u.length ≤ n) :
    cellsOfGrid t us (g.map (·.take n)) = cellsOfGrid t us g := by
  induction us generalizing g with
  | nil => cases g <;> rfl
  | cons u us ih =>
    cases g with
    | nil => rfl
    | cons x g =>
      rw [List.map_cons, cellsOfGrid, cellsOfGrid, cellsOf_take t u x n (h u (by simp)),
        ih g (fun u hu => h u (by simp [hu]))]

/-- What a section places. -/
theorem Section.placeSymbols_spec [Zero α] (w : Wave α) (s : Section α) (data references : List α)
    (hd : data.length = s.numSymbols) (hr : references.length = s.numReferences w.numSubcarriers)
    (hp : ∀ e, s = .pilot e →
      (pilotSequence w.defaultPilot e w.numSubcarriers).length = w.numSubcarriers) :
    ∃ rows, s.placeSymbols w data references = .ok rows ∧ rows.length = s.numWords ∧
      (∀ row ∈ rows, row.length = s.numSubcarriers w.numSubcarriers) ∧
      cellsOfGrid .data (s.types w.numSubcarriers) rows = data ∧
      cellsOfGrid .reference (s.types w.numSubcarriers) rows = s.ownReferences w references ∧
      cellsOfGrid .null (s.types w.numSubcarriers) rows =
        List.replicate (s.numOf w.numSubcarriers .null) 0 := by
  set N := w.numSubcarriers with hN
  have hmask : ∀ t, s.resourceMask N t = (s.types N).map (maskRow t (s.numSubcarriers N)) :=
    fun t => s.resourceMask_eq N t
  set refs : List α := s.ownReferences w references with hrefs
  have hrl : refs.length = s.numOf N .reference := by
    cases s with
    | guard => simpa [hrefs, Section.ownReferences, Section.numOf, Section.types, Section.numReferences] using hr
    | pilot e =>
      simp only [hrefs, Section.ownReferences, ← hN]
      rw [hp e rfl]
      simp [Section.numOf, Section.types]
    | symbols reps pattern off =>
      simp only [hrefs, Section.ownReferences]
      rw [hr, Section.numReferences_symbols]
  have hdl : data.length = s.numOf N .data := by rw [hd, s.numSymbols_eq N]
  have hw : s.numWords = (s.types N).length := (s.types_length N).symm
  set zeros := List.replicate s.numWords (List.replicate (s.numSubcarriers N) (0 : α)) with hz
  have hz1 : (s.types N).length = zeros.length := by rw [hz, List.length_replicate, hw]
  have hz2 : ∀ g ∈ zeros, g.length = s.numSubcarriers N := by
    intro g hg
    rw [(List.mem_replicate.1 hg).2, List.length_replicate]
  set g1 := scatterRows ((s.types N).map (maskRow .reference (s.numSubcarriers N))) zeros refs with hg1
  have h1 : (s.types N).length = g1.length := by rw [hg1, scatterRows_length, hz1]
  have h2 : ∀ g ∈ g1, g.length = s.numSubcarriers N := scatterRows_row _ _ _ _ hz2
  set g2 := scatterRows ((s.types N).map (maskRow .data (s.numSubcarriers N))) g1 data with hg2
  have hcell : ∀ t, cellsOfGrid t (s.types N) g2 =
      if t = .data then data else if t = .reference then refs else
        List.replicate (s.numOf N t) 0 := by
    intro t
    rw [hg2, cells_scatterRows .data t (s.numSubcarriers N) (s.types N) g1 data h1 h2
      (s.types_row_le N) hdl.symm]
    rw [hg1, cells_scatterRows .reference t (s.numSubcarriers N) (s.types N) zeros refs hz1 hz2
      (s.types_row_le N) hrl.symm]
    rw [hz, hw, cellsOfGrid_zeros t (s.types N) (s.numSubcarriers N) (s.types_row_le N)]
    rfl
  refine ⟨g2, ?_, ?_, ?_, ?_, ?_, ?_⟩
  · have e1 : maskAssign (s.resourceMask N .reference) zeros refs = .ok g1 := by
      unfold maskAssign
      rw [if_pos (by rw [hmask, countRows_eq]; exact hrl), hmask]
    have e2 : maskAssign (s.resourceMask N .data) g1 data = .ok g2 := by
      unfold maskAssign
      rw [if_pos (by rw [hmask, countRows_eq]; exact hdl), hmask]
    rw [Section.placeSymbols]
    simp only [← hN, ← hz, ← hrefs]
    rw [e1]
    exact e2
  · rw [hg2, scatterRows_length, ← h1, hw]
  · exact scatterRows_row _ _ _ _ h2
  · simpa using hcell .data
  · rw [hcell .reference]; simp
  · rw [hcell .null]; simp

theorem Section.pickSymbols_spec (N : Nat) (s : Section α) (grid : List (List α))
    (hl : grid.length = s.numWords) (hr : ∀ row ∈ grid, s.numSubcarriers N ≤ row.length) :
    s.pickSymbols N grid = .ok (cellsOfGrid .data (s.types N) grid) := by
  rw [Section.pickSymbols, if_pos ⟨hl, hr⟩]
  have hmask : s.resourceMask N .data = (s.types N).map (maskRow .data (s.numSubcarriers N)) :=
    s.resourceMask_eq N .data
  rw [hmask, gatherRows_eq, cellsOfGrid_take .data _ _ _ (s.types_row_le N)]

/-- Reference symbols found on a placed grid: the sequence given by the waveform, except that a pilot
section uses its own sequence and consumes given symbols only if it has no elements. -/
def expectedReferences (w : Wave α) : List (Section α) → List α → List α
  | [], _ => []
  | .pilot e :: ss, refs =>
    pilotSequence w.defaultPilot e w.numSubcarriers ++
      expectedReferences w ss (refs.drop ((Section.pilot e : Section α).numReferences w.numSubcarriers))
  | s :: ss, refs =>
    refs.take (s.numReferences w.numSubcarriers) ++
      expectedReferences w ss (refs.drop (s.numReferences w.numSubcarriers))

theorem placeLoop_spec [Zero α] (w : Wave α) (ss : List (Section α)) (data references : List α)
    (hfit : ∀ s ∈ ss, s.numSubcarriers w.numSubcarriers ≤ w.numSubcarriers)
    (hp : ∀ e : Option (Nat × List α), Section.pilot e ∈ ss →
      (pilotSequence w.defaultPilot e w.numSubcarriers).length = w.numSubcarriers)
    (hd : data.length = (ss.map (·.numSymbols)).sum)
    (hr : references.length = (ss.map (·.numReferences w.numSubcarriers)).sum) :
    ∃ grid, placeLoop w ss data references = .ok grid ∧
      grid.length = (ss.map (·.numWords)).sum ∧
      (∀ row ∈ grid, row.length = w.numSubcarriers) ∧
      cellsOfGrid .data (ss.flatMap (·.types w.numSubcarriers)) grid = data ∧
      cellsOfGrid .reference (ss.flatMap (·.types w.numSubcarriers)) grid =
        expectedReferences w ss references ∧
      cellsOfGrid .null (ss.flatMap (·.types w.numSubcarriers)) grid =
        List.replicate ((ss.map (·.numOf w.numSubcarriers .null)).sum) 0 := by
  induction ss generalizing data references with
  | nil =>
    have : data = [] := List.eq_nil_of_length_eq_zero (by simpa using hd)
    subst this
    exact ⟨[], rfl, rfl, by simp, rfl, rfl, rfl⟩
  | cons s ss ih =>
    rw [List.map_cons, List.sum_cons] at hd hr
    obtain ⟨rows, r1, r2, r3, r4, r5, r6⟩ := s.placeSymbols_spec w (data.take s.numSymbols)
      (references.take (s.numReferences w.numSubcarriers)) (by rw [List.length_take]; omega)
      (by rw [List.length_take]; omega) (fun e he => hp e (by rw [he]; simp))
    obtain ⟨rest, q1, q2, q3, q4, q5, q6⟩ := ih (data.drop s.numSymbols)
      (references.drop (s.numReferences w.numSubcarriers)) (fun s hs => hfit s (by simp [hs]))
      (fun e he => hp e (by simp [he])) (by rw [List.length_drop]; omega)
      (by rw [List.length_drop]; omega)
    have hs := hfit s (by simp)
    set pad := List.replicate (w.numSubcarriers - s.numSubcarriers w.numSubcarriers) (0 : α) with hpad
    have hcell : ∀ t, cellsOfGrid t ((s :: ss).flatMap (·.types w.numSubcarriers))
        (rows.map (fun row => row ++ pad) ++ rest) =
        cellsOfGrid t (s.types w.numSubcarriers) rows ++
          cellsOfGrid t (ss.flatMap (·.types w.numSubcarriers)) rest := by
      intro t
      rw [List.flatMap_cons, cellsOfGrid_append t _ _ _ _ (by
        rw [List.length_map, r2, Section.types_length]),
        cellsOfGrid_map_append t _ _ _ (fun u hu x hx => by
          rw [r3 x hx]; exact s.types_row_le _ u hu)]
    refine ⟨rows.map (fun row => row ++ pad) ++ rest, ?_, ?_, ?_, ?_, ?_, ?_⟩
    · simp only [placeLoop]
      rw [r1]
      simp only []
      rw [if_neg (by omega), q1]
    · simp [r2, q2]
    · intro row hrow
      rcases List.mem_append.1 hrow with h | h
      · obtain ⟨x, hx, rfl⟩ := List.mem_map.1 h
        rw [List.length_append, r3 x hx, hpad, List.length_replicate]
        omega
      · exact q3 row h
    · rw [hcell, r4, q4, List.take_append_drop]
    · rw [hcell, r5, q5]
      cases s <;> rfl
    · rw [hcell, r6, q6, List.map_cons, List.sum_cons, List.replicate_add]

theorem pickLoop_spec (N : Nat) (ss : List (Section α)) (grid : List (List α))
    (hfit : ∀ s ∈ ss, s.numSubcarriers N ≤ N)
    (hl : grid.length = (ss.map (·.numWords)).sum) (hr : ∀ row ∈ grid, row.length = N) :
    pickLoop N ss grid = .ok (cellsOfGrid .data (ss.flatMap (·.types N)) grid) := by
  induction ss generalizing grid with
  | nil => cases grid <;> rfl
  | cons s ss ih =>
    rw [List.map_cons, List.sum_cons] at hl
    have h1 : (grid.take s.numWords).length = s.numWords := by rw [List.length_take]; omega
    rw [pickLoop, s.pickSymbols_spec N _ h1 (fun row h => by
      rw [hr row (List.mem_of_mem_take h)]; exact hfit s (by simp))]
    simp only []
    rw [ih (grid.drop s.numWords) (fun s hs => hfit s (by simp [hs]))
      (by rw [List.length_drop]; omega) (fun row h => hr row (List.mem_of_mem_drop h))]
    simp only []
    rw [List.flatMap_cons]
    conv_rhs => rw [← List.take_append_drop s.numWords grid]
    rw [cellsOfGrid_append _ _ _ _ _ (by rw [Section.types_length, h1])]

theorem Wave.sums (w : Wave α) :
    w.numDataSymbols = (w.structure_.map (·.numSymbols)).sum ∧
    w.referencesPerFrame = (w.structure_.map (·.numReferences w.numSubcarriers)).sum ∧
    w.wordsPerFrame = (w.structure_.map (·.numWords)).sum := by
  refine ⟨?_, ?_, ?_⟩
  · rw [Wave.numDataSymbols, foldl_add_acc, Nat.zero_add]
  · rw [Wave.referencesPerFrame, foldl_add_acc, Nat.zero_add]
  · rw [Wave.wordsPerFrame, foldl_add_acc, Nat.zero_add]

/-! ### C55 -/

/-- C55, placing: as many data symbols as announced are placed, in order, on exactly the data cells of
the configured grid; reference cells hold the reference symbols in order; null cells are zero; the grid
has the announced number of words, each as wide as the waveform. -/
theorem C55_place [Zero α] (w : Wave α) (hfit : w.Fits) (data references : List α)
    (hd : data.length = w.numDataSymbols) (hr : references.length = w.referencesPerFrame) :
    ∃ grid, w.place data references = .ok grid ∧ grid.length = w.wordsPerFrame ∧
      (∀ row ∈ grid, row.length = w.numSubcarriers) ∧
      cellsOfGrid .data w.types grid = data ∧
      cellsOfGrid .reference w.types grid = expectedReferences w w.structure_ references ∧
      ∀ x ∈ cellsOfGrid .null w.types grid, x = 0 := by
  obtain ⟨grid, h1, h2, h3, h4, h5, h6⟩ := placeLoop_spec w w.structure_ data references hfit.1 hfit.2
    (by rw [hd, w.sums.1]) (by rw [hr, w.sums.2.1])
  refine ⟨grid, ?_, by rw [h2, w.sums.2.2], h3, h4, h5, ?_⟩
  · rw [Wave.place, if_neg (by simpa using hd), h1]
  · intro x hx
    rw [show cellsOfGrid .null w.types grid = _ from h6] at hx
    exact (List.mem_replicate.1 hx).2

/-- C55, picking: from any grid of the frame's size, picking returns the contents of exactly the data
cells, word by word. -/
theorem C55_pick (w : Wave α) (hfit : w.Fits) (grid : List (List α))
    (hl : grid.length = w.wordsPerFrame) (hr : ∀ row ∈ grid, row.length = w.numSubcarriers) :
    w.pick grid = .ok (cellsOfGrid .data w.types grid) :=
  pickLoop_spec w.numSubcarriers w.structure_ grid hfit.1 (by rw [hl, w.sums.2.2]) hr

/-- C55, round trip: picking from a placed grid returns the placed data symbols. -/
theorem C55_roundtrip [Zero α] (w : Wave α) (hfit : w.Fits) (data references : List α)
    (hd : data.length = w.numDataSymbols) (hr : references.length = w.referencesPerFrame) :
    ∃ grid, w.place data references = .ok grid ∧ w.pick grid = .ok data := by
  obtain ⟨grid, h1, h2, h3, h4, _⟩ := C55_place w hfit data references hd hr
  exact ⟨grid, h1, by rw [C55_pick w hfit grid h2 h3, h4]⟩

/-- C55, streams and states: every stream and every state layer is picked at the same cells, so that
symbols and states stay aligned. -/
theorem C55_stated (w : Wave α) (hfit : w.Fits) (streams : List (List (List α)))
    (states : List (List (List (List α))))
    (hs : ∀ g ∈ streams, g.length = w.wordsPerFrame ∧ ∀ row ∈ g, row.length = w.numSubcarriers)
    (ht : ∀ rx ∈ states, ∀ g ∈ rx,
      g.length = w.wordsPerFrame ∧ ∀ row ∈ g, row.length = w.numSubcarriers) :
    w.pickStated streams states =
      .ok (streams.map (cellsOfGrid .data w.types),
        states.map fun rx => rx.map (cellsOfGrid .data w.types)) := by
  have hm : ∀ {β γ : Type} (f : β → Except PyErr γ) (h : β → γ) (l : List β),
      (∀ b ∈ l, f b = .ok (h b)) → l.mapM f = .ok (l.map h) := by
    intro β γ f h l
    induction l with
    | nil => intro _; rfl
    | cons b l ih =>
      intro hb
      rw [List.mapM_cons, hb b (by simp), ih (fun c hc => hb c (by simp [hc]))]
      rfl
  rw [Wave.pickStated, hm w.pick (cellsOfGrid .data w.types) streams
    (fun g hg => C55_pick w hfit g (hs g hg).1 (hs g hg).2),
    hm (fun rx => rx.mapM w.pick) (fun rx => rx.map (cellsOfGrid .data w.types)) states
    (fun rx hrx => hm w.pick _ rx (fun g hg => C55_pick w hfit g (ht rx hrx g hg).1 (ht rx hrx g hg).2))]

/-- C55, wrong sizes: any other number of data symbols is refused. -/
theorem C55_refuses [Zero α] (w : Wave α) (data references : List α)
    (hd : data.length ≠ w.numDataSymbols) : w.place data references = .error .value := by
  rw [Wave.place, if_pos hd]

/-- A frame of two repetitions of a pattern with two different resources, a guard and a pilot word. -/
def exampleWave : Wave ℚ where
  numSubcarriers := 4
  structure_ := [.symbols 2 [⟨1, .cyclic, 1 / 4, [⟨.reference, 1⟩, ⟨.data, 2⟩]⟩,
    ⟨2, .cyclic, 0, [⟨.data, 1⟩, ⟨.null, 1⟩]⟩] 0, .guard 1 1, .pilot none]
  pilotSection := none
  defaultPilot := fun n => List.replicate n 9

example : exampleWave.Fits ∧ exampleWave.numDataSymbols = 8 ∧ exampleWave.referencesPerFrame = 6 ∧
    exampleWave.place [1, 2, 3, 4, 5, 6, 7, 8] [10, 20, 30, 40, 50, 60] =
      .ok [[10, 1, 2, 0], [3, 0, 4, 0], [20, 5, 6, 0], [7, 0, 8, 0], [9, 9, 9, 9]] := by
  refine ⟨⟨?_, ?_⟩, rfl, rfl, rfl⟩
  · decide
  · intro e he
    simp only [exampleWave, List.mem_cons, reduceCtorEq, Section.pilot.injEq, List.not_mem_nil,
      or_false, false_or] at he
    subst he
    rfl

end Verif.Modem
