import Verif.Np
import Mathlib.Data.Complex.Basic
import Mathlib.Data.List.Chain
import Mathlib.Tactic.FieldSimp
import Mathlib.Tactic.Ring
import Mathlib.Tactic.Linarith

/-!
# C145: signals created from arrays and blocks

`hermespy/core/signal_model.py`: `Signal.Create`, the constructor of sparse signals, the dense view on signals, and
`SparseSignal._validate_samples_offsets`, which is meant to check blocks but is called by nothing.  Samples are exact complex numbers.
-/

namespace Verif.SignalCreate

open Verif (PyErr)

/-- A two-dimensional array of `M` streams and `N` samples.  Signal blocks have an offset, plain arrays have none,
`core/signal_model.py` 395-441. -/
structure Arr where
  offset : Option ℕ
  M : ℕ
  N : ℕ
  x : ℕ → ℕ → ℂ

/-- What `Signal.Create` is given: an array or a sequence of arrays. -/
inductive Samples where
  | array (a : Arr)
  | seq (l : List Arr)

/-- Signals: dense ones are a single block, `core/signal_model.py` 1187, sparse ones are a list of blocks, 1598-1661.  Carrier frequency
and noise power, which are handed on as they are, are left out. -/
inductive Sig where
  | dense (a : Arr) (rate delay : ℝ)
  | sparse (l : List Arr) (rate delay : ℝ)

/-- `DenseSignal.FromNDArray`, `core/signal_model.py` 1285-1298: the view keeps the offset of blocks, plain arrays
get the default of zero (431-441). -/
def fromArray (a : Arr) (rate delay : ℝ) : Sig := .dense { a with offset := some (a.offset.getD 0) } rate delay

/-- What is added to the delay, `core/signal_model.py` 901-902. -/
noncomputable def shift (rate : ℝ) : Option (List ℤ) → ℝ
  | some (o :: _) => o / rate
  | _ => 0

/-- `Signal.Create`, `core/signal_model.py` 898-910. -/
noncomputable def create (s : Samples) (rate delay : ℝ) (offsets : Option (List ℤ)) : Sig :=
  match s with
  | .array a => fromArray a rate (delay + shift rate offsets)
  | .seq [a] => fromArray a rate (delay + shift rate offsets)
  | .seq l => .sparse l rate delay

/-- `num_streams`, `core/signal_model.py` 443-450 and 1699-1702. -/
def Sig.streams : Sig → ℕ
  | .dense a _ _ => a.M
  | .sparse [] _ _ => 0
  | .sparse (b :: _) _ _ => b.M

/-- `num_samples`, `core/signal_model.py` 452-459 and 1692-1695: plain arrays have no attribute `end` (478-483). -/
def Sig.samples : Sig → Except PyErr ℕ
  | .dense a _ _ => .ok a.N
  | .sparse l _ _ =>
    match l.getLast? with
    | none => .ok 0
    | some b =>
      match b.offset with
      | none => .error .attribute
      | some o => .ok (o + b.N)

/-- `dense_samples[:, b.offset : b.offset + b.num_samples] = b`, `core/signal_model.py` 1737: numpy's assignment to `S` streams and `N` samples
clips the slice and repeats arrays of a single stream or a single sample. -/
def put (S N : ℕ) (d : ℕ → ℕ → ℂ) (b : Arr) : Except PyErr (ℕ → ℕ → ℂ) :=
  match b.offset with
  | none => .error .attribute
  | some o =>
    let lo := min o N
    let hi := min (o + b.N) N
    if (b.M = S ∨ b.M = 1) ∧ (b.N = hi - lo ∨ b.N = 1) then
      .ok fun m t => if m < S ∧ lo ≤ t ∧ t < hi then b.x (if b.M = 1 then 0 else m) (if b.N = 1 then 0 else t - lo) else d m t
    else .error .value

/-- The loop, `core/signal_model.py` 1736-1737. -/
def putAll (S N : ℕ) : List Arr → (ℕ → ℕ → ℂ) → Except PyErr (ℕ → ℕ → ℂ)
  | [], d => .ok d
  | b :: l, d =>
    match put S N d b with
    | .error e => .error e
    | .ok d => putAll S N l d

/-- `to_dense`, `core/signal_model.py` 1734-1740: the samples shown, or an error.  Dense signals show their own samples. -/
def Sig.toDense (s : Sig) : Except PyErr (ℕ → ℕ → ℂ) :=
  match s with
  | .dense a _ _ => .ok a.x
  | .sparse l _ _ =>
    match s.samples with
    | .error e => .error e
    | .ok N => putAll s.streams N l fun _ _ => 0

/-- `block_offsets`, `core/signal_model.py` 1307-1312 and 1680-1683. -/
def Sig.offsets : Sig → List (Option ℕ)
  | .dense _ _ _ => [some 0]
  | .sparse l _ _ => l.map Arr.offset

/-- Delay of a signal. -/
def Sig.delay : Sig → ℝ
  | .dense _ _ d => d
  | .sparse _ _ d => d

/-- Offsets `SparseSignal._validate_samples_offsets` resolves if it is given none, `core/signal_model.py` 2555-2561. -/
def resolve : ℤ → List Arr → List ℤ
  | _, [] => []
  | e, b :: l =>
    let o : ℤ := match b.offset with
      | some o => o
      | none => e
    o :: resolve (o + b.N) l

/-- The check of offsets, `core/signal_model.py` 2566-2571. -/
def ordered : List Arr → List ℤ → Bool
  | b :: c :: l, o :: p :: os => decide (o + b.N ≤ p) && ordered (c :: l) (p :: os)
  | _, _ => true

/-- `SparseSignal._validate_samples_offsets`, `core/signal_model.py` 2529-2573, for sequences of two-dimensional complex arrays. -/
def validate (l : List Arr) (offsets : Option (List ℤ)) : Except PyErr (List Arr × List ℤ) :=
  match l with
  | [] => .ok ([⟨none, 0, 0, fun _ _ => 0⟩], [0])
  | b :: _ =>
    if l.any fun c => c.M ≠ b.M then .error .value
    else
      match offsets with
      | none => if ordered l (resolve 0 l) then .ok (l, resolve 0 l) else .error .value
      | some os =>
        if os.length ≠ l.length then .error .value
        else if ordered l os then .ok (l, os) else .error .value

/-- Two blocks of which the first ends before the second begins. -/
def Before (b c : Arr) : Prop := ∃ o p, b.offset = some o ∧ c.offset = some p ∧ o + b.N ≤ p

/-- Blocks of `M` streams each, sorted and not overlapping, as the documentation of sparse signals asks for (1598-1608). -/
def Fit (M : ℕ) (l : List Arr) : Prop := (∀ b ∈ l, b.M = M ∧ ∃ o, b.offset = some o) ∧ l.Pairwise Before

/-- A block is at an offset and covers an index. -/
def Covers (b : Arr) (t : ℕ) : Prop := ∃ o, b.offset = some o ∧ o ≤ t ∧ t < o + b.N

theorem put_fit {S N o : ℕ} {d : ℕ → ℕ → ℂ} {b : Arr} (ho : b.offset = some o) (hM : b.M = S) (hN : o + b.N ≤ N) :
    ∃ d', put S N d b = .ok d' ∧ (∀ m k, m < S → k < b.N → d' m (o + k) = b.x m k) ∧ ∀ m t, ¬ Covers b t → d' m t = d m t := by
  unfold put
  rw [ho]
  dsimp only
  rw [Nat.min_eq_left (by omega : o ≤ N), Nat.min_eq_left hN, if_pos ⟨Or.inl hM, Or.inl (by omega)⟩]
  refine ⟨_, rfl, fun m k hm hk => ?_, fun m t hc => ?_⟩
  · rw [if_pos ⟨hm, by omega, by omega⟩]
    congr 1
    · split_ifs <;> omega
    · split_ifs <;> omega
  · rw [if_neg]
    rintro ⟨-, h1, h2⟩
    exact hc ⟨o, ho, h1, h2⟩

theorem putAll_fit {S N : ℕ} : ∀ (l : List Arr) (d : ℕ → ℕ → ℂ), (∀ b ∈ l, b.M = S ∧ ∃ o, b.offset = some o ∧ o + b.N ≤ N) →
    l.Pairwise Before → ∃ d', putAll S N l d = .ok d' ∧
      (∀ b ∈ l, ∀ o, b.offset = some o → ∀ m k, m < S → k < b.N → d' m (o + k) = b.x m k) ∧
      ∀ m t, (∀ b ∈ l, ¬ Covers b t) → d' m t = d m t := by
  intro l
  induction l with
  | nil => exact fun d _ _ => ⟨d, rfl, by simp, fun _ _ _ => rfl⟩
  | cons b l ih =>
    intro d h hp
    obtain ⟨hM, o, ho, hN⟩ := h b List.mem_cons_self
    obtain ⟨d1, e1, s1, z1⟩ := put_fit (d := d) ho hM hN
    rw [List.pairwise_cons] at hp
    obtain ⟨d2, e2, s2, z2⟩ := ih d1 (fun c hc => h c (List.mem_cons_of_mem _ hc)) hp.2
    refine ⟨d2, ?_, ?_, ?_⟩
    · unfold putAll
      rw [e1]
      exact e2
    · intro c hc p hcp m k hm hk
      rcases List.mem_cons.mp hc with rfl | hc
      · rw [ho] at hcp
        cases hcp
        rw [z2 m (o + k), s1 m k hm hk]
        rintro c' hc' ⟨q, hq, hq1, -⟩
        obtain ⟨o', q', h1, h2, h3⟩ := hp.1 c' hc'
        rw [ho] at h1
        rw [hq] at h2
        cases h1
        cases h2
        omega
      · exact s2 c hc p hcp m k hm hk
    · intro m t hn
      rw [z2 m t fun c hc => hn c (List.mem_cons_of_mem _ hc), z1 m t (hn b List.mem_cons_self)]

/-- C145: sequences of several blocks of as many streams each, sorted and not overlapping, become signals of as many streams and as
many samples as the last block ends at, delayed as asked for, which show every block at its offset and nothing in between. -/
theorem C145_blocks (M : ℕ) (l : List Arr) (last : Arr) (p : ℕ) (hl : l ≠ []) (hp : last.offset = some p) (h : Fit M (l ++ [last]))
    (rate delay : ℝ) (offsets : Option (List ℤ)) :
    let s := create (.seq (l ++ [last])) rate delay offsets
    s.streams = M ∧ s.samples = .ok (p + last.N) ∧ s.delay = delay ∧ ∃ d, s.toDense = .ok d ∧
      (∀ b ∈ l ++ [last], ∀ o, b.offset = some o → ∀ m k, m < M → k < b.N → d m (o + k) = b.x m k) ∧
      ∀ m t, (∀ b ∈ l ++ [last], ∀ o, b.offset = some o → t < o ∨ o + b.N ≤ t) → d m t = 0 := by
  obtain ⟨b, l, rfl⟩ := List.exists_cons_of_ne_nil hl
  have hs : create (.seq (b :: l ++ [last])) rate delay offsets = .sparse (b :: l ++ [last]) rate delay := by
    cases l <;> rfl
  rw [hs]
  have hsamp : (Sig.sparse (b :: l ++ [last]) rate delay).samples = .ok (p + last.N) := by
    unfold Sig.samples
    dsimp only
    rw [List.getLast?_concat]
    dsimp only
    rw [hp]
  have hstr : (Sig.sparse (b :: l ++ [last]) rate delay).streams = M := (h.1 b List.mem_cons_self).1
  have hend : ∀ c ∈ b :: l ++ [last], c.M = M ∧ ∃ o, c.offset = some o ∧ o + c.N ≤ p + last.N := by
    intro c hc
    obtain ⟨h1, o, h2⟩ := h.1 c hc
    refine ⟨h1, o, h2, ?_⟩
    rcases List.mem_append.mp hc with hc | hc
    · obtain ⟨o', p', e1, e2, e3⟩ := (List.pairwise_append.mp h.2).2.2 c hc last (by simp)
      rw [h2] at e1
      rw [hp] at e2
      cases e1
      cases e2
      omega
    · rw [List.mem_singleton] at hc
      subst hc
      rw [hp] at h2
      cases h2
      exact le_rfl
  obtain ⟨d, e, hd, hz⟩ := putAll_fit (N := p + last.N) _ (fun _ _ => 0) hend h.2
  refine ⟨hstr, hsamp, rfl, d, ?_, hd, fun m t ht => hz m t ?_⟩
  · unfold Sig.toDense
    dsimp only
    rw [hsamp]
    dsimp only
    rw [hstr]
    exact e
  · rintro c hc ⟨o, h1, h2, h3⟩
    rcases ht c hc o h1 with h | h <;> omega

/-- Instant at which sparse signals place sample `k` of a block when signals are superimposed, `core/signal_model.py` 2382-2386 and
2441-2455: the delay of the signal and the offset of the block. -/
noncomputable def instant (delay rate : ℝ) (b : Arr) (k : ℕ) : ℝ := delay + ((b.offset.getD 0 : ℕ) + k) / rate

/-- C145, single arrays: an array without offset, alone or in a sequence, becomes a dense signal of its samples, and an offset handed over
delays it by as many samples. -/
theorem C145_single_partial (a : Arr) (ha : a.offset.getD 0 = 0) (rate delay : ℝ) (o : ℤ) (os : List ℤ) (s : Samples)
    (hs : s = .array a ∨ s = .seq [a]) :
    ∃ b, create s rate delay (some (o :: os)) = .dense b rate (delay + o / rate) ∧ b.M = a.M ∧ b.N = a.N ∧ b.x = a.x ∧
      (create s rate delay none) = .dense b rate delay ∧
      ∀ k, instant (delay + o / rate) rate b k = delay + (o + k) / rate := by
  refine ⟨{ a with offset := some 0 }, ?_, rfl, rfl, rfl, ?_, ?_⟩
  · rcases hs with rfl | rfl <;> (unfold create; dsimp only; unfold fromArray shift; rw [ha])
  · rcases hs with rfl | rfl <;> (unfold create; dsimp only; unfold fromArray shift; rw [ha, add_zero])
  · intro k
    unfold instant
    simp only [Option.getD_some]
    push_cast
    ring

/-- C145 fails: a single block handed over with its own offset, as channels and antennas do, is placed after twice its offset. -/
theorem C145_twice_fails (a : Arr) (o : ℕ) (ha : a.offset = some o) (rate delay : ℝ) :
    ∃ b d, create (.seq [a]) rate delay (some [(o : ℤ)]) = .dense b rate d ∧ ∀ k, instant d rate b k = delay + (2 * o + k) / rate := by
  refine ⟨{ a with offset := some o }, delay + ((o : ℤ) : ℝ) / rate, ?_, fun k => ?_⟩
  · unfold create
    dsimp only
    unfold fromArray shift
    rw [ha]
    rfl
  · unfold instant
    simp only [Option.getD_some]
    push_cast
    ring

/-- C145 fails: a single block is shown from sample zero on, whatever its offset: the silence before it is lost, although a sequence
of an empty block and the same block shows it. -/
theorem C145_silence_fails (a : Arr) (o : ℕ) (ha : a.offset = some o) (rate delay : ℝ) (k : ℕ) (hk : k < a.N) (m : ℕ) (hm : m < a.M) :
    let s := create (.seq [a]) rate delay none
    let s' := create (.seq [⟨some 0, a.M, 0, fun _ _ => 0⟩, a]) rate delay none
    s.samples = .ok a.N ∧ s.offsets = [some 0] ∧ s.delay = delay ∧ (∃ d, s.toDense = .ok d ∧ d m k = a.x m k) ∧
      s'.samples = .ok (o + a.N) ∧ ∃ d, s'.toDense = .ok d ∧ d m (o + k) = a.x m k := by
  intro s s'
  obtain ⟨-, h2, -, d, h3, h4, -⟩ := C145_blocks a.M [⟨some 0, a.M, 0, fun _ _ => 0⟩] a o (by simp) ha
    ⟨by simp [ha], by simp [Before, ha]⟩ rate delay none
  refine ⟨rfl, rfl, ?_, ⟨_, rfl, rfl⟩, h2, d, h3, h4 a (by simp) o ha m k hm hk⟩
  show delay + 0 = delay
  exact add_zero _

/-- C145 fails: offsets handed over with several blocks have no effect. -/
theorem C145_offsets_fails (l : List Arr) (hl : l.length ≠ 1) (rate delay : ℝ) (offsets : Option (List ℤ)) :
    create (.seq l) rate delay offsets = .sparse l rate delay := by
  unfold create
  rcases l with _ | ⟨a, _ | ⟨b, l⟩⟩
  · rfl
  · exact absurd rfl hl
  · rfl

/-- C145 fails: sequences of several plain arrays, documented as being concatenated, are accepted, but reading the number of samples
or the samples raises an AttributeError, whatever offsets are handed over. -/
theorem C145_plain_fails (l : List Arr) (last : Arr) (hl : l ≠ []) (hn : last.offset = none) (rate delay : ℝ) (offsets : Option (List ℤ)) :
    (create (.seq (l ++ [last])) rate delay offsets).samples = .error .attribute ∧
      (create (.seq (l ++ [last])) rate delay offsets).toDense = .error .attribute := by
  rw [C145_offsets_fails _ (by cases l <;> simp_all)]
  have h : (Sig.sparse (l ++ [last]) rate delay).samples = .error .attribute := by
    unfold Sig.samples
    dsimp only
    rw [List.getLast?_concat]
    dsimp only
    rw [hn]
  refine ⟨h, ?_⟩
  unfold Sig.toDense
  dsimp only
  rw [h]

/-- C145 fails: so does reading the samples if the last of the arrays has an offset but the first has none. -/
theorem C145_mixed_fails (a : Arr) (l : List Arr) (last : Arr) (p : ℕ) (ha : a.offset = none) (hp : last.offset = some p) (rate delay : ℝ)
    (offsets : Option (List ℤ)) :
    (create (.seq (a :: l ++ [last])) rate delay offsets).samples = .ok (p + last.N) ∧
      (create (.seq (a :: l ++ [last])) rate delay offsets).toDense = .error .attribute := by
  rw [C145_offsets_fails _ (by simp)]
  have h : (Sig.sparse (a :: l ++ [last]) rate delay).samples = .ok (p + last.N) := by
    unfold Sig.samples
    dsimp only
    rw [List.getLast?_concat]
    dsimp only
    rw [hp]
  refine ⟨h, ?_⟩
  unfold Sig.toDense
  dsimp only
  rw [h]
  dsimp only [List.cons_append]
  unfold putAll put
  rw [ha]

/-- Samples of two blocks. -/
theorem toDense_two (a b : Arr) (p : ℕ) (hb : b.offset = some p) (rate delay : ℝ) (offsets : Option (List ℤ)) :
    (create (.seq [a, b]) rate delay offsets).samples = .ok (p + b.N) ∧
    (create (.seq [a, b]) rate delay offsets).toDense = putAll a.M (p + b.N) [a, b] fun _ _ => 0 := by
  have h : (create (.seq [a, b]) rate delay offsets).samples = .ok (p + b.N) := by
    show (match b.offset with
      | none => Except.error PyErr.attribute
      | some o => .ok (o + b.N)) = _
    rw [hb]
  refine ⟨h, ?_⟩
  show (match (create (.seq [a, b]) rate delay offsets).samples with
    | .error e => Except.error e
    | .ok N => putAll a.M N [a, b] fun _ _ => 0) = _
  rw [h]

/-- C145 fails: a block of a single stream in a signal of several streams is accepted and shown on all of them. -/
theorem C145_streams_fails (a b : Arr) (o p : ℕ) (ha : a.offset = some o) (hb : b.offset = some p) (h : o + a.N ≤ p) (hM : b.M = 1)
    (rate delay : ℝ) (offsets : Option (List ℤ)) :
    ∃ d, (create (.seq [a, b]) rate delay offsets).toDense = .ok d ∧ ∀ m k, m < a.M → k < b.N → d m (p + k) = b.x 0 k := by
  rw [(toDense_two a b p hb rate delay offsets).2]
  obtain ⟨d1, e1, -, -⟩ := put_fit (S := a.M) (N := p + b.N) (d := fun _ _ => 0) ha rfl (by omega)
  unfold putAll
  rw [e1]
  dsimp only
  unfold putAll put
  rw [hb]
  dsimp only
  rw [Nat.min_eq_left (by omega : p ≤ p + b.N), Nat.min_self, if_pos ⟨Or.inr hM, Or.inl (by omega)⟩]
  refine ⟨_, rfl, fun m k hm hk => ?_⟩
  rw [if_pos ⟨hm, by omega, by omega⟩, if_pos hM]
  congr 1
  split_ifs <;> omega

/-- C145 fails: blocks of other numbers of streams are accepted, and only reading the samples raises a ValueError. -/
theorem C145_late_fails (a b : Arr) (o p : ℕ) (ha : a.offset = some o) (hb : b.offset = some p) (h : o + a.N ≤ p) (hM : b.M ≠ a.M) (h1 : b.M ≠ 1)
    (rate delay : ℝ) (offsets : Option (List ℤ)) :
    (create (.seq [a, b]) rate delay offsets).samples = .ok (p + b.N) ∧ (create (.seq [a, b]) rate delay offsets).toDense = .error .value := by
  obtain ⟨e, e'⟩ := toDense_two a b p hb rate delay offsets
  refine ⟨e, ?_⟩
  rw [e']
  obtain ⟨d1, e1, -, -⟩ := put_fit (S := a.M) (N := p + b.N) (d := fun _ _ => 0) ha rfl (by omega)
  unfold putAll
  rw [e1]
  dsimp only
  unfold putAll put
  rw [hb]
  dsimp only
  rw [if_neg (fun hc => hc.1.elim hM h1)]

/-- C145 fails: overlapping blocks are accepted; where they overlap only the later block of the sequence is shown. -/
theorem C145_overlap_fails (a b : Arr) (o p : ℕ) (ha : a.offset = some o) (hb : b.offset = some p) (h : o + a.N ≤ p + b.N) (hM : b.M = a.M)
    (rate delay : ℝ) (offsets : Option (List ℤ)) :
    ∃ d, (create (.seq [a, b]) rate delay offsets).toDense = .ok d ∧ (∀ m k, m < a.M → k < b.N → d m (p + k) = b.x m k) ∧
      ∀ m k, m < a.M → k < a.N → o + k < p → d m (o + k) = a.x m k := by
  rw [(toDense_two a b p hb rate delay offsets).2]
  obtain ⟨d1, e1, s1, -⟩ := put_fit (S := a.M) (N := p + b.N) (d := fun _ _ => 0) ha rfl h
  obtain ⟨d2, e2, s2, z2⟩ := put_fit (S := a.M) (N := p + b.N) (d := d1) hb hM le_rfl
  refine ⟨d2, ?_, s2, fun m k hm hk hlt => ?_⟩
  · unfold putAll
    rw [e1]
    dsimp only
    unfold putAll
    rw [e2]
    rfl
  · rw [z2 m (o + k), s1 m k hm hk]
    rintro ⟨q, hq, hq1, -⟩
    rw [hb] at hq
    cases hq
    omega

/-- C145 fails: blocks out of order are accepted, but the number of samples is the end of the last in the sequence: reading the samples
raises a ValueError, or, if the other block has a single sample, loses it. -/
theorem C145_order_fails (a b : Arr) (o p : ℕ) (ha : a.offset = some o) (hb : b.offset = some p) (h : p + b.N ≤ o) (hM : b.M = a.M)
    (rate delay : ℝ) (offsets : Option (List ℤ)) :
    (create (.seq [a, b]) rate delay offsets).samples = .ok (p + b.N) ∧
      (1 < a.N → (create (.seq [a, b]) rate delay offsets).toDense = .error .value) ∧
      (a.N = 1 → ∃ d, (create (.seq [a, b]) rate delay offsets).toDense = .ok d ∧ ∀ m t, p + b.N ≤ t → d m t = 0) := by
  obtain ⟨e, e'⟩ := toDense_two a b p hb rate delay offsets
  refine ⟨e, fun hN => ?_, fun hN => ?_⟩
  · rw [e']
    unfold putAll put
    rw [ha]
    dsimp only
    rw [Nat.min_eq_right h, Nat.min_eq_right (by omega), if_neg (by omega)]
  · rw [e']
    unfold putAll put
    rw [ha]
    dsimp only
    rw [Nat.min_eq_right h, Nat.min_eq_right (by omega), if_pos ⟨Or.inl rfl, Or.inr hN⟩]
    dsimp only
    obtain ⟨d2, e2, -, z2⟩ := put_fit (S := a.M) (N := p + b.N)
      (d := fun m t => if m < a.M ∧ p + b.N ≤ t ∧ t < p + b.N then a.x (if a.M = 1 then 0 else m) (if a.N = 1 then 0 else t - (p + b.N)) else 0)
      hb hM le_rfl
    refine ⟨d2, ?_, fun m t ht => ?_⟩
    · unfold putAll
      rw [e2]
      rfl
    · rw [z2 m t, if_neg (by omega)]
      rintro ⟨q, hq, -, hq2⟩
      rw [hb] at hq
      cases hq
      omega

theorem ordered_blocks : ∀ (l : List Arr) (e : ℤ), (∀ b ∈ l, ∃ o, b.offset = some o) →
    (ordered l (resolve e l) = true ↔ l.IsChain Before) := by
  intro l
  induction l with
  | nil => intro e _; simp [ordered]
  | cons b l ih =>
    intro e h
    obtain ⟨o, ho⟩ := h b List.mem_cons_self
    cases l with
    | nil => simp [ordered]
    | cons c l =>
      obtain ⟨p, hp⟩ := h c (by simp)
      have hi := ih (o + b.N) fun b' h' => h b' (List.mem_cons_of_mem _ h')
      rw [List.isChain_cons_cons, ← hi]
      simp only [resolve, ho, hp, ordered, Bool.and_eq_true, decide_eq_true_eq, Before, Option.some.injEq]
      refine and_congr_left fun _ => ?_
      constructor
      · intro hle
        exact ⟨o, p, rfl, rfl, by exact_mod_cast hle⟩
      · rintro ⟨o', p', rfl, rfl, hle⟩
        exact_mod_cast hle

theorem before_trans (a b c : Arr) (h : Before a b) (h' : Before b c) : Before a c := by
  obtain ⟨o, p, h1, h2, h3⟩ := h
  obtain ⟨p', q, h4, h5, h6⟩ := h'
  rw [h2] at h4
  cases h4
  exact ⟨o, q, h1, h5, by omega⟩

/-- C145, the check nobody calls: it accepts exactly the sequences of blocks of as many streams each, sorted and not overlapping, as they
are, and raises a ValueError for all others. -/
theorem C145_validator (b : Arr) (l : List Arr) (h : ∀ c ∈ b :: l, ∃ o, c.offset = some o) :
    (Fit b.M (b :: l) → ∃ os, validate (b :: l) none = .ok (b :: l, os)) ∧ (¬ Fit b.M (b :: l) → validate (b :: l) none = .error .value) := by
  have ho := ordered_blocks (b :: l) 0 h
  have : IsTrans Arr Before := ⟨before_trans⟩
  rw [List.isChain_iff_pairwise] at ho
  have ha : ((b :: l).any fun c => decide (c.M ≠ b.M)) = true ↔ ¬ ∀ c ∈ b :: l, c.M = b.M := by
    rw [List.any_eq_true]
    push Not
    simp only [decide_eq_true_eq, ne_eq]
  constructor
  · intro hf
    refine ⟨resolve 0 (b :: l), ?_⟩
    unfold validate
    dsimp only
    rw [if_neg (fun hc => ha.mp hc fun c hc => (hf.1 c hc).1), if_pos (ho.mpr hf.2)]
  · intro hf
    unfold validate
    dsimp only
    by_cases hc : ((b :: l).any fun c => decide (c.M ≠ b.M)) = true
    · rw [if_pos hc]
    · rw [if_neg hc, if_neg]
      intro hp
      rw [ha, not_not] at hc
      exact hf ⟨fun c hm => ⟨hc c hm, h c hm⟩, ho.mp hp⟩

theorem ordered_iff : ∀ (l : List Arr) (os : List ℤ), os.length = l.length →
    (ordered l os = true ↔ ∀ i b, l[i]? = some b → i + 1 < l.length → os.getD i 0 + b.N ≤ os.getD (i + 1) 0) := by
  intro l
  induction l with
  | nil => intro os _; simp [ordered]
  | cons b l ih =>
    intro os h
    cases l with
    | nil => simp [ordered]
    | cons c l =>
      match os, h with
      | o :: p :: os, h =>
        have hi := ih (p :: os) (by simpa using h)
        unfold ordered
        rw [Bool.and_eq_true, decide_eq_true_eq, hi]
        constructor
        · rintro ⟨h1, h2⟩ i d hd hlt
          cases i with
          | zero =>
            simp only [List.getElem?_cons_zero, Option.some.injEq] at hd
            subst hd
            simpa using h1
          | succ i =>
            have := h2 i d (by simpa using hd) (by simpa using hlt)
            simpa using this
        · intro hall
          refine ⟨by simpa using hall 0 b rfl (by simp), fun i d hd hlt => ?_⟩
          have := hall (i + 1) d (by simpa using hd) (by simpa using hlt)
          simpa using this

/-- C145, the check nobody calls: given offsets, it accepts exactly those which are as many as the blocks and place each one after
the end of the one before, whatever the blocks' own offsets, and raises a ValueError for all others. -/
theorem C145_validator_offsets (b : Arr) (l : List Arr) (os : List ℤ) (hM : ∀ c ∈ l, c.M = b.M) :
    let ok := os.length = l.length + 1 ∧ ∀ i c, (b :: l)[i]? = some c → i < l.length → os.getD i 0 + c.N ≤ os.getD (i + 1) 0
    (ok → validate (b :: l) (some os) = .ok (b :: l, os)) ∧ (¬ ok → validate (b :: l) (some os) = .error .value) := by
  intro ok
  have ha : ¬ ((b :: l).any fun c => decide (c.M ≠ b.M)) = true := by
    rw [List.any_eq_true]
    rintro ⟨c, hc, hn⟩
    rw [decide_eq_true_eq] at hn
    rcases List.mem_cons.mp hc with rfl | hc
    exacts [hn rfl, hn (hM c hc)]
  unfold validate
  dsimp only
  rw [if_neg ha]
  by_cases hlen : os.length = l.length + 1
  · rw [if_neg (by simpa using hlen)]
    have hi := ordered_iff (b :: l) os (by simpa using hlen)
    simp only [List.length_cons, Nat.add_lt_add_iff_right] at hi
    exact ⟨fun h => by rw [if_pos (hi.mpr h.2)], fun h => by rw [if_neg fun hc => h ⟨hlen, hi.mp hc⟩]⟩
  · rw [if_pos (by simpa using hlen)]
    exact ⟨fun h => absurd h.1 hlen, fun _ => rfl⟩

theorem resolve_plain : ∀ (l : List Arr) (e : ℤ), (∀ b ∈ l, b.offset = none) →
    ∀ i, i < l.length → (resolve e l).getD i 0 = e + ((l.take i).map fun b => (b.N : ℤ)).sum := by
  intro l
  induction l with
  | nil => intro e _ i hi; simp at hi
  | cons b l ih =>
    intro e h i hi
    unfold resolve
    rw [h b List.mem_cons_self]
    dsimp only
    cases i with
    | zero => simp
    | succ i =>
      rw [List.getD_cons_succ, ih _ (fun c hc => h c (List.mem_cons_of_mem _ hc)) i (by simpa using hi), List.take_succ_cons, List.map_cons,
        List.sum_cons]
      ring

theorem resolve_length : ∀ (l : List Arr) (e : ℤ), (resolve e l).length = l.length := by
  intro l
  induction l with
  | nil => exact fun _ => rfl
  | cons b l ih => intro e; unfold resolve; rw [List.length_cons, ih, List.length_cons]

/-- C145, the check nobody calls: plain arrays of as many streams each are accepted, one placed right after the other. -/
theorem C145_validator_plain (b : Arr) (l : List Arr) (hM : ∀ c ∈ l, c.M = b.M) (h : ∀ c ∈ b :: l, c.offset = none) :
    ∃ os, validate (b :: l) none = .ok (b :: l, os) ∧ os.length = l.length + 1 ∧
      ∀ i, i ≤ l.length → os.getD i 0 = (((b :: l).take i).map fun c => (c.N : ℤ)).sum := by
  have hr := resolve_plain (b :: l) 0 h
  refine ⟨resolve 0 (b :: l), ?_, resolve_length _ _, fun i hi => by rw [hr i (by simpa using Nat.lt_succ_of_le hi), zero_add]⟩
  have ho : ordered (b :: l) (resolve 0 (b :: l)) = true := by
    rw [ordered_iff _ _ (resolve_length _ _)]
    intro i c hc hlt
    rw [hr i (by omega), hr (i + 1) hlt, List.take_add_one, hc]
    simp
  have ha : ¬ ((b :: l).any fun c => decide (c.M ≠ b.M)) = true := by
    rw [List.any_eq_true]
    rintro ⟨c, hc, hn⟩
    rw [decide_eq_true_eq] at hn
    rcases List.mem_cons.mp hc with rfl | hc
    exacts [hn rfl, hn (hM c hc)]
  unfold validate
  dsimp only
  rw [if_neg ha, if_pos ho]

/-- Two plain arrays of two samples and one sample are placed at 0 and 2. -/
example : ∃ os, validate [⟨none, 1, 2, fun _ _ => 1⟩, ⟨none, 1, 1, fun _ _ => 2⟩] none =
    .ok ([⟨none, 1, 2, fun _ _ => 1⟩, ⟨none, 1, 1, fun _ _ => 2⟩], os) ∧ os.getD 1 0 = 2 := by
  obtain ⟨os, h1, -, h2⟩ := C145_validator_plain ⟨none, 1, 2, fun _ _ => 1⟩ [⟨none, 1, 1, fun _ _ => 2⟩] (by simp) (by simp)
  exact ⟨os, h1, by rw [h2 1 (by simp)]; simp⟩

/-- Blocks of two samples and of one sample cannot be placed at 0 and 1. -/
example : validate [⟨none, 1, 2, fun _ _ => 1⟩, ⟨none, 1, 1, fun _ _ => 2⟩] (some [0, 1]) = .error .value :=
  (C145_validator_offsets ⟨none, 1, 2, fun _ _ => 1⟩ [⟨none, 1, 1, fun _ _ => 2⟩] [0, 1] (by simp)).2 fun h => by
    have := h.2 0 _ rfl (by simp)
    norm_num at this

/-- Two blocks of a stream, two samples at 1 and one at 5. -/
example : Fit 1 ([⟨some 1, 1, 2, fun _ _ => 1⟩] ++ [⟨some 5, 1, 1, fun _ _ => 2⟩]) :=
  ⟨by simp, by simp [Before]⟩

/-- They are accepted by the check; exchanged they are not. -/
example : (∃ os, validate [⟨some 1, 1, 2, fun _ _ => 1⟩, ⟨some 5, 1, 1, fun _ _ => 2⟩] none =
      .ok ([⟨some 1, 1, 2, fun _ _ => 1⟩, ⟨some 5, 1, 1, fun _ _ => 2⟩], os)) ∧
    validate [⟨some 5, 1, 1, fun _ _ => 2⟩, ⟨some 1, 1, 2, fun _ _ => 1⟩] none = .error .value :=
  ⟨(C145_validator ⟨some 1, 1, 2, fun _ _ => 1⟩ [⟨some 5, 1, 1, fun _ _ => 2⟩] (by simp)).1 ⟨by simp, by simp [Before]⟩,
    (C145_validator _ _ (by simp)).2 fun h => by
    have := h.2
    simp [Before] at this⟩

/-- Exchanged, the sample at 5 is lost. -/
example : ∃ d, (create (.seq [⟨some 5, 1, 1, fun _ _ => 2⟩, ⟨some 1, 1, 2, fun _ _ => 1⟩]) 1 0 none).toDense = .ok d ∧ ∀ m t, 3 ≤ t → d m t = 0 :=
  (C145_order_fails ⟨some 5, 1, 1, fun _ _ => 2⟩ ⟨some 1, 1, 2, fun _ _ => 1⟩ 5 1 rfl rfl (by norm_num) rfl 1 0 none).2.2 rfl

/-- Blocks at 0 and 2 of three samples each overlap at sample 2, which shows the second block. -/
example : ∃ d, (create (.seq [⟨some 0, 1, 3, fun _ _ => 1⟩, ⟨some 2, 1, 3, fun _ _ => 2⟩]) 1 0 none).toDense = .ok d ∧ d 0 2 = 2 := by
  obtain ⟨d, h, h1, -⟩ := C145_overlap_fails ⟨some 0, 1, 3, fun _ _ => 1⟩ ⟨some 2, 1, 3, fun _ _ => 2⟩ 0 2 rfl rfl (by norm_num) rfl 1 0 none
  exact ⟨d, h, h1 0 0 (by norm_num) (by norm_num)⟩

/-- A plain array at rate 2, handed over with offset 3, is delayed by 1.5. -/
example : ∃ b, create (.array ⟨none, 1, 4, fun _ _ => 1⟩) 2 0 (some [3]) = .dense b 2 (3 / 2) := by
  obtain ⟨b, h, -⟩ := C145_single_partial ⟨none, 1, 4, fun _ _ => 1⟩ rfl 2 0 3 [] _ (Or.inl rfl)
  exact ⟨b, by rw [h]; norm_num⟩

end Verif.SignalCreate
