import Verif.Np
import Mathlib.Data.List.Basic

/-!
# Series of communication symbols

`Symbols` and `StatedSymbols` of `hermespy/modem/symbols.py`: appending streams and blocks, sharing of the
underlying arrays, channel states. Arrays live in a store, an object holds a reference to its array.
-/

namespace Verif.Modem

variable {α : Type}

/-- A three-dimensional array: streams of `B` blocks of `N` symbols. `hermespy/modem/symbols.py` 142-151. -/
structure Arr3 (α : Type) where
  B : Nat
  N : Nat
  streams : List (List (List α))

/-- Every stream has `B` blocks of `N` symbols. -/
def Arr3.WF (a : Arr3 α) : Prop :=
  ∀ s ∈ a.streams, s.length = a.B ∧ ∀ b ∈ s, b.length = a.N

/-- The array of `Symbols()`: shape `(0, 0, 0)`. `hermespy/modem/symbols.py` 153. -/
def Arr3.empty : Arr3 α := ⟨0, 0, []⟩

/-- An array given by one to three dimensions, as converted by the constructor and the append routines:
vectors become one stream of single-symbol blocks, matrices streams of single-symbol blocks, more than three
dimensions are refused. `hermespy/modem/symbols.py` 154-168, 202-210, 240-248. -/
inductive Given (α : Type) where
  | scalar (x : α)
  | vector (xs : List α)
  | matrix (B : Nat) (rows : List (List α))
  | tensor (a : Arr3 α)
  | more

/-- The conversion of the append routines (a zero-dimensional array is refused as well).
`hermespy/modem/symbols.py` 202-210, 240-248. -/
def Given.to3 : Given α → Except PyErr (Arr3 α)
  | .scalar _ => .error .value
  | .vector xs => .ok ⟨xs.length, 1, [xs.map fun x => [x]]⟩
  | .matrix B rows => .ok ⟨B, 1, rows.map fun row => row.map fun x => [x]⟩
  | .tensor a => .ok a
  | .more => .error .value

/-- `append_stream(array)` on the value of the series. `hermespy/modem/symbols.py` 185-223. -/
def appendStream (a b : Arr3 α) : Except PyErr (Arr3 α) :=
  if a.N < 1 ∧ a.streams.length ≤ 1 then .ok b
  else if a.N ≠ b.N then .error .value
  else if a.B ≠ b.B then .error .value
  else .ok ⟨a.B, a.N, a.streams ++ b.streams⟩

/-- `append_symbols(array)`: concatenation of blocks; `np.append` itself refuses different block lengths.
`hermespy/modem/symbols.py` 225-257. -/
def appendSymbols (a b : Arr3 α) : Except PyErr (Arr3 α) :=
  if a.N < 1 ∧ a.streams.length ≤ 1 then .ok b
  else if a.streams.length ≠ b.streams.length then .error .value
  else if a.N ≠ b.N then .error .value
  else .ok ⟨a.B + b.B, a.N, List.zipWith (· ++ ·) a.streams b.streams⟩

/-- `append_stream(other)` on references: the first append to an empty series takes over the array of the
appended object, all others allocate a new array. `hermespy/modem/symbols.py` 199-223. -/
def appendStreamRef (heap : List (Arr3 α)) (self other : Nat) : Except PyErr (List (Arr3 α) × Nat) :=
  match heap[self]?, heap[other]? with
  | some a, some b =>
    if a.N < 1 ∧ a.streams.length ≤ 1 then .ok (heap, other)
    else match appendStream a b with
      | .error e => .error e
      | .ok c => .ok (heap ++ [c], heap.length)
  | _, _ => .error .attribute

/-- A series of appends to one object. -/
def appendStreamsRef (heap : List (Arr3 α)) (self : Nat) : List Nat →
    Except PyErr (List (Arr3 α) × Nat)
  | [] => .ok (heap, self)
  | o :: os =>
    match appendStreamRef heap self o with
    | .error e => .error e
    | .ok (heap', self') => appendStreamsRef heap' self' os

/-- `symbols[s, b, n] = value`. `hermespy/modem/symbols.py` 291-303. -/
def setSymbolRef (heap : List (Arr3 α)) (self s b n : Nat) (value : α) : List (Arr3 α) :=
  heap.modify self fun a => { a with
    streams := a.streams.modify s fun st => st.modify b fun bl => bl.set n value }

/-- Symbols with channel states, of which only the shape matters here.
`hermespy/modem/symbols.py` 325-396. -/
structure Stated (α : Type) where
  symbols : Arr3 α
  rx : Nat
  tx : Nat
  blocks : Nat
  perBlock : Nat

/-- The constructor with the checks of the `states` setter. `hermespy/modem/symbols.py` 330-381. -/
def Stated.create (symbols : Arr3 α) (rx tx blocks perBlock : Nat) : Except PyErr (Stated α) :=
  if rx ≠ symbols.streams.length then .error .value
  else if blocks ≠ symbols.B then .error .value
  else if perBlock ≠ symbols.N then .error .value
  else .ok ⟨symbols, rx, tx, blocks, perBlock⟩

/-- `copy`. `hermespy/modem/symbols.py` 399-400. -/
def Stated.copy (s : Stated α) : Except PyErr (Stated α) :=
  Stated.create s.symbols s.rx s.tx s.blocks s.perBlock

/-- The inherited `append_stream`: the states stay as they were. -/
def Stated.appendStream (s : Stated α) (b : Arr3 α) : Except PyErr (Stated α) :=
  match Modem.appendStream s.symbols b with
  | .error e => .error e
  | .ok c => .ok { s with symbols := c }

/-- The inherited `append_symbols`. -/
def Stated.appendSymbols (s : Stated α) (b : Arr3 α) : Except PyErr (Stated α) :=
  match Modem.appendSymbols s.symbols b with
  | .error e => .error e
  | .ok c => .ok { s with symbols := c }

/-! ## C62 -/

/-- **C62, streams.** Starting from an empty series, appending any number of objects with equal block
structure yields exactly their streams in order of appending; no array that existed before is changed. -/
theorem C62_append_streams (heap : List (Arr3 α)) (self : Nat) (h0 : heap[self]? = some Arr3.empty)
    (others : List Nat) (B N : Nat) (hN : 1 ≤ N) (arrays : List (Arr3 α))
    (hot : others.map (fun o => heap[o]?) = arrays.map some)
    (hsh : ∀ a ∈ arrays, a.B = B ∧ a.N = N) :
    ∃ heap' self', appendStreamsRef heap self others = .ok (heap', self') ∧ heap <+: heap' ∧
      heap'[self']? = some (if arrays = [] then Arr3.empty else
        ⟨B, N, arrays.flatMap (·.streams)⟩) := by
  have key : ∀ (others : List Nat) (arrays : List (Arr3 α)) (heap1 : List (Arr3 α)) (self1 : Nat)
      (done : List (List (List α))), heap <+: heap1 → heap1[self1]? = some ⟨B, N, done⟩ →
      others.map (fun o => heap[o]?) = arrays.map some → (∀ a ∈ arrays, a.B = B ∧ a.N = N) →
      ∃ heap' self', appendStreamsRef heap1 self1 others = .ok (heap', self') ∧ heap <+: heap' ∧
        heap'[self']? = some ⟨B, N, done ++ arrays.flatMap (·.streams)⟩ := by
    intro others
    induction others with
    | nil =>
      intro arrays heap1 self1 done hp hs ho _
      have : arrays = [] := by
        cases arrays with
        | nil => rfl
        | cons a as => simp at ho
      subst this
      exact ⟨heap1, self1, rfl, hp, by simpa using hs⟩
    | cons o os ih =>
      intro arrays heap1 self1 done hp hs ho hsh
      cases arrays with
      | nil => simp at ho
      | cons a as =>
        simp only [List.map_cons, List.cons.injEq] at ho
        obtain ⟨ha, ho⟩ := ho
        have ha1 : heap1[o]? = some a := by
          obtain ⟨t, rfl⟩ := hp
          rw [List.getElem?_append_left (List.getElem?_eq_some_iff.mp ha).1]
          exact ha
        have hsa := hsh a (by simp)
        have step : appendStreamRef heap1 self1 o =
            .ok (heap1 ++ [⟨B, N, done ++ a.streams⟩], heap1.length) := by
          unfold appendStreamRef
          rw [hs, ha1]
          simp only
          rw [if_neg (by omega)]
          unfold appendStream
          simp only
          rw [if_neg (by omega), if_neg (by rw [hsa.2]; simp), if_neg (by rw [hsa.1]; simp)]
        obtain ⟨heap', self', e1, e2, e3⟩ := ih as (heap1 ++ [⟨B, N, done ++ a.streams⟩]) heap1.length
          (done ++ a.streams) (hp.trans (List.prefix_append _ _)) (by simp) ho
          (fun x hx => hsh x (by simp [hx]))
        refine ⟨heap', self', ?_, e2, ?_⟩
        · rw [appendStreamsRef, step]
          exact e1
        · rw [e3]; simp
  cases others with
  | nil =>
    have : arrays = [] := by
      cases arrays with
      | nil => rfl
      | cons a as => simp at hot
    subst this
    exact ⟨heap, self, rfl, List.prefix_refl _, by simpa using h0⟩
  | cons o os =>
    cases arrays with
    | nil => simp at hot
    | cons a as =>
      simp only [List.map_cons, List.cons.injEq] at hot
      obtain ⟨ha, ho⟩ := hot
      have hsa := hsh a (by simp)
      have step : appendStreamRef heap self o = .ok (heap, o) := by
        unfold appendStreamRef
        rw [h0, ha]
        simp [Arr3.empty]
      obtain ⟨heap', self', e1, e2, e3⟩ := key os as heap o a.streams (List.prefix_refl _)
        (by rw [ha, ← hsa.1, ← hsa.2]) ho (fun x hx => hsh x (by simp [hx]))
      refine ⟨heap', self', ?_, e2, ?_⟩
      · rw [appendStreamsRef, step]
        exact e1
      · rw [e3]; simp

/-- **C62, acceptance.** Streams can be appended to a non-empty series exactly if blocks and symbols per
block agree, blocks exactly if streams and symbols per block agree; otherwise a `ValueError` is raised.
The results have the expected contents and shape. -/
theorem C62_append_accepts (a b : Arr3 α) (ha : a.WF) (hb : b.WF)
    (hne : 1 ≤ a.N ∨ 2 ≤ a.streams.length) :
    (a.B = b.B ∧ a.N = b.N → ∃ c, appendStream a b = .ok c ∧ c.WF ∧ c.B = a.B ∧ c.N = a.N ∧
      c.streams = a.streams ++ b.streams) ∧
    (¬ (a.B = b.B ∧ a.N = b.N) → appendStream a b = .error .value) ∧
    (a.streams.length = b.streams.length ∧ a.N = b.N → ∃ c, appendSymbols a b = .ok c ∧ c.WF ∧
      c.B = a.B + b.B ∧ c.N = a.N ∧ c.streams.length = a.streams.length ∧
      ∀ (s : Nat) (x y : List (List α)), a.streams[s]? = some x → b.streams[s]? = some y →
        c.streams[s]? = some (x ++ y)) ∧
    (¬ (a.streams.length = b.streams.length ∧ a.N = b.N) → appendSymbols a b = .error .value) := by
  refine ⟨?_, ?_, ?_, ?_⟩
  · rintro ⟨h1, h2⟩
    refine ⟨⟨a.B, a.N, a.streams ++ b.streams⟩, ?_, ?_, rfl, rfl, rfl⟩
    · unfold appendStream
      rw [if_neg (by omega), if_neg (by omega), if_neg (by omega)]
    · intro s hs
      rcases List.mem_append.mp hs with h | h
      · exact ha s h
      · obtain ⟨k1, k2⟩ := hb s h
        exact ⟨k1.trans h1.symm, fun x hx => (k2 x hx).trans h2.symm⟩
  · intro h
    unfold appendStream
    rw [if_neg (by omega)]
    by_cases h2 : a.N = b.N
    · rw [if_neg (by omega), if_pos (by tauto)]
    · rw [if_pos h2]
  · rintro ⟨h1, h2⟩
    refine ⟨⟨a.B + b.B, a.N, List.zipWith (· ++ ·) a.streams b.streams⟩, ?_, ?_, rfl, rfl, ?_, ?_⟩
    · unfold appendSymbols
      rw [if_neg (by omega), if_neg (by omega), if_neg (by omega)]
    · intro s hs
      obtain ⟨i, hi⟩ := List.mem_iff_getElem?.mp hs
      simp only [List.getElem?_zipWith] at hi
      split at hi
      · next x y hx hy =>
        cases hi
        obtain ⟨k1, k2⟩ := ha x (List.mem_of_getElem? hx)
        obtain ⟨k3, k4⟩ := hb y (List.mem_of_getElem? hy)
        refine ⟨by simp [k1, k3], ?_⟩
        intro z hz
        rcases List.mem_append.mp hz with h | h
        · exact k2 z h
        · exact (k4 z h).trans h2.symm
      · cases hi
    · simp [List.length_zipWith, h1]
    · intro s x y hx hy
      simp [List.getElem?_zipWith, hx, hy]
  · intro h
    unfold appendSymbols
    rw [if_neg (by omega)]
    by_cases h1 : a.streams.length = b.streams.length
    · rw [if_neg (by omega), if_pos (by tauto)]
    · rw [if_pos h1]

/-- C62, conversion: vectors become one stream of single-symbol blocks, matrices one stream per row; both
are well-formed. -/
theorem C62_given (xs : List α) (B : Nat) (rows : List (List α)) (hr : ∀ r ∈ rows, r.length = B) :
    (∃ a, (Given.vector xs).to3 = .ok a ∧ a.WF ∧ a.B = xs.length ∧ a.N = 1 ∧
      a.streams.map List.flatten = [xs]) ∧
    (∃ a, (Given.matrix B rows).to3 = .ok a ∧ a.WF ∧ a.B = B ∧ a.N = 1 ∧
      a.streams.map List.flatten = rows) ∧
    (Given.more : Given α).to3 = .error .value := by
  have hflat : ∀ xs : List α, (xs.map fun x => [x]).flatten = xs := by
    intro xs
    induction xs with
    | nil => rfl
    | cons x xs ih => simp [ih]
  refine ⟨⟨_, rfl, ?_, rfl, rfl, ?_⟩, ⟨_, rfl, ?_, rfl, rfl, ?_⟩, rfl⟩
  · intro s hs
    rw [List.mem_singleton.mp hs]
    exact ⟨by simp, by simp⟩
  · simp [hflat]
  · intro s hs
    obtain ⟨r, hr', rfl⟩ := List.mem_map.mp hs
    exact ⟨by simp [hr r hr'], by simp⟩
  · rw [List.map_map]
    conv_rhs => rw [← List.map_id rows]
    apply List.map_congr_left
    intro r _
    simp [hflat]

/-- C62 is false for independence: the first object appended to an empty series is not copied. Writing any
symbol of the series afterwards writes the appended object. -/
theorem C62_alias_fails (heap : List (Arr3 α)) (self other : Nat) (b : Arr3 α)
    (h0 : heap[self]? = some Arr3.empty) (hb : heap[other]? = some b) (s k n : Nat) (value : α)
    (st : List (List α)) (bl : List α) (hs : b.streams[s]? = some st) (hk : st[k]? = some bl)
    (hn : n < bl.length) :
    ∃ self', appendStreamRef heap self other = .ok (heap, self') ∧
      ∃ b', (setSymbolRef heap self' s k n value)[other]? = some b' ∧
        ((b'.streams[s]?.bind (·[k]?)).bind (·[n]?)) = some value := by
  refine ⟨other, ?_, ?_⟩
  · unfold appendStreamRef
    rw [h0, hb]
    simp [Arr3.empty]
  · unfold setSymbolRef
    rw [List.getElem?_modify_eq, hb]
    refine ⟨_, rfl, ?_⟩
    simp [List.getElem?_modify_eq, hs, hk, List.getElem?_set_self hn]

/-- **C62, states.** Symbols and states can be combined exactly if their shapes agree. -/
theorem C62_states (a : Arr3 α) (rx tx blocks perBlock : Nat) :
    (∃ s, Stated.create a rx tx blocks perBlock = .ok s) ↔
      rx = a.streams.length ∧ blocks = a.B ∧ perBlock = a.N := by
  unfold Stated.create
  split_ifs with h1 h2 h3
  · exact ⟨fun ⟨_, h⟩ => (nomatch h), fun h => absurd h.1 h1⟩
  · exact ⟨fun ⟨_, h⟩ => (nomatch h), fun h => absurd h.2.1 h2⟩
  · exact ⟨fun ⟨_, h⟩ => (nomatch h), fun h => absurd h.2.2 h3⟩
  · push Not at h1 h2 h3
    exact ⟨fun _ => ⟨h1, h2, h3⟩, fun _ => ⟨_, rfl⟩⟩

/-- C62 is false for stated symbols: appending does not extend the states. After every accepted append of
at least one stream (or block) to a valid non-empty series the object is inconsistent; it cannot even be
copied. -/
theorem C62_stated_append_fails (a b : Arr3 α) (rx tx blocks perBlock : Nat) (s : Stated α)
    (hs : Stated.create a rx tx blocks perBlock = .ok s)
    (hne : 1 ≤ a.N ∨ 2 ≤ a.streams.length) :
    (∀ s', s.appendStream b = .ok s' → b.streams ≠ [] → s'.copy = .error .value) ∧
    (∀ s', s.appendSymbols b = .ok s' → b.B ≠ 0 → s'.copy = .error .value) := by
  obtain ⟨h1, h2, h3⟩ := (C62_states a rx tx blocks perBlock).mp ⟨s, hs⟩
  have hse : s = ⟨a, rx, tx, blocks, perBlock⟩ := by
    unfold Stated.create at hs
    rw [if_neg (by omega), if_neg (by omega), if_neg (by omega)] at hs
    cases hs
    rfl
  subst hse
  constructor
  · intro s' h hb
    have hbl := List.length_pos_iff.mpr hb
    unfold Stated.appendStream appendStream at h
    simp only at h
    rw [if_neg (by omega)] at h
    split_ifs at h
    cases h
    unfold Stated.copy Stated.create
    rw [if_pos]
    simp only [List.length_append]
    omega
  · intro s' h hb
    unfold Stated.appendSymbols appendSymbols at h
    simp only at h
    rw [if_neg (by omega)] at h
    split_ifs at h with k1 k2
    cases h
    unfold Stated.copy Stated.create
    simp only
    rw [if_neg (by simp only [List.length_zipWith]; omega), if_pos (by omega)]

/-- Two streams of two single-symbol blocks, appended one after the other. -/
example : appendStreamsRef [Arr3.empty, ⟨2, 1, [[[1], [2]]]⟩, ⟨2, 1, [[[3], [4]]]⟩] 0 [1, 2] =
    .ok ([Arr3.empty, ⟨2, 1, [[[1], [2]]]⟩, ⟨2, 1, [[[3], [4]]]⟩, ⟨2, 1, [[[1], [2]], [[3], [4]]]⟩],
      (3 : Nat)) := by rfl

example : ∃ s : Stated ℕ, Stated.create ⟨1, 1, [[[1]]]⟩ 1 1 1 1 = .ok s ∧
    ∃ s', s.appendStream ⟨1, 1, [[[2]]]⟩ = .ok s' ∧ s'.copy = .error .value :=
  ⟨_, rfl, _, rfl, rfl⟩

end Verif.Modem
