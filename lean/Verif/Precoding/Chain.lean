import Verif.Np
import Mathlib.Data.List.Basic
import Mathlib.Data.Rat.Floor
import Mathlib.Tactic.FieldSimp
import Mathlib.Tactic.NormNum

/-!
# Precoding chains: stream accounting, order of the steps, block accounting

Model of `hermespy/core/precoding.py`, of the constructor loops of `core/device.py` and
`modem/modem.py`, and of the accounting functions of `modem/precoding/symbol_precoding.py`.
-/

namespace Verif.Precoding

/-- A transmit encoder seen by the chain (`core/precoding.py` 66-80 `TransmitEncoder`,
289-312 `TransmitStreamEncoder`).
`needs n` is `num_transmit_input_streams(n)` (negative: infeasible);
`encode x n` is `encode_streams(x, n, device)`.  The device state is fixed during one call and
therefore left implicit; the payload type `S` (signals, symbols) is arbitrary. -/
structure Encoder (S : Type) where
  needs : Int → Int
  encode : S → Int → Except PyErr S

/-- A receive decoder seen by the chain (`core/precoding.py` 96-114, 315-337). -/
structure Decoder (S : Type) where
  yields : Int → Int
  decode : S → Int → Except PyErr S

variable {S : Type}

/-- The loop of `TransmitPrecoding._collect_encoder_num_io_streams`, `core/precoding.py` 219-231:
`acc` is `num_encoder_io_streams`, whose head is read and which grows at the front; the list
argument is `reversed(self)`. -/
def collectEncLoop : List (Encoder S) → List Int → Except PyErr (List Int)
  | [], acc => .ok acc
  | e :: es, acc =>
    match acc with
    | [] => .error .index
    | h :: t =>
      let n := e.needs h
      if n < 0 then .error .value
      else collectEncLoop es (n :: h :: t)

/-- `TransmitPrecoding._collect_encoder_num_io_streams`, `core/precoding.py` 201-233. -/
def collectEnc (chain : List (Encoder S)) (numOutput : Int) : Except PyErr (List Int) :=
  if numOutput < 1 then .error .value
  else collectEncLoop chain.reverse [numOutput]

/-- `TransmitPrecoding.num_transmit_input_streams`, `core/precoding.py` 235-248. -/
def numTransmitInputStreams (chain : List (Encoder S)) (numOutput : Int) : Except PyErr Int :=
  if chain.length < 1 then .ok numOutput
  else do
    let io ← collectEnc chain numOutput
    match io with
    | [] => .error .index
    | h :: _ => .ok h

/-- The loop of `ReceivePrecoding._collect_decoder_num_io_streams`, `core/precoding.py` 263-272:
`last` is `num_decoder_io_streams[-1]`; the returned list holds the entries appended. -/
def collectDecLoop : List (Decoder S) → Int → Except PyErr (List Int)
  | [], _ => .ok []
  | d :: ds, last =>
    let n := d.yields last
    if n < 0 then .error .value
    else do
      let rest ← collectDecLoop ds n
      .ok (n :: rest)

/-- `ReceivePrecoding._collect_decoder_num_io_streams`, `core/precoding.py` 254-272. -/
def collectDec (chain : List (Decoder S)) (numInput : Int) : Except PyErr (List Int) :=
  if numInput < 1 then .error .value
  else do
    let rest ← collectDecLoop chain numInput
    .ok (numInput :: rest)

/-- `ReceivePrecoding.num_receive_output_streams`, `core/precoding.py` 274-286. -/
def numReceiveOutputStreams (chain : List (Decoder S)) (numInput : Int) : Except PyErr Int :=
  if chain.length < 1 then .ok numInput
  else do
    let io ← collectDec chain numInput
    match io.getLast? with
    | none => .error .index
    | some h => .ok h

/-- The loop `for precoder, n in zip(self, io[1:])`, `core/precoding.py` 371-373. -/
def encodeLoop : List (Encoder S × Int) → S → Except PyErr S
  | [], x => .ok x
  | (e, n) :: es, x => do
    let y ← e.encode x n
    encodeLoop es y

/-- `TransmitSignalCoding.encode_streams`, `core/precoding.py` 343-375; `numStreams` reads
`signal.num_streams`, `ports` is `device.num_transmit_rf_ports`. -/
def encodeStreams (numStreams : S → Int) (chain : List (Encoder S)) (ports : Int) (x : S) :
    Except PyErr S :=
  if chain.length < 1 then .ok x
  else do
    let io ← collectEnc chain ports
    match io with
    | [] => .error .index
    | h :: t =>
      if numStreams x ≠ h then .error .value
      else encodeLoop (chain.zip t) x

/-- The loop of `decode_streams`, `core/precoding.py` 406-408. -/
def decodeLoop : List (Decoder S × Int) → S → Except PyErr S
  | [], x => .ok x
  | (d, n) :: ds, x => do
    let y ← d.decode x n
    decodeLoop ds y

/-- `ReceiveSignalCoding.decode_streams`, `core/precoding.py` 381-410. -/
def decodeStreams (chain : List (Decoder S)) (ports : Int) (x : S) : Except PyErr S :=
  if chain.length < 1 then .ok x
  else do
    let io ← collectDec chain ports
    decodeLoop (chain.zip io.tail) x

/-! ### Specification -/

/-- A ladder of stream counts for an encoding chain: entry `i` is exactly what stage `i` needs in
order to produce entry `i+1`, no entry is negative. -/
def EncLadder (chain : List (Encoder S)) (io : List Int) : Prop :=
  io.length = chain.length + 1 ∧
  ∀ (i : Nat) (e : Encoder S) (a b : Int), chain[i]? = some e → io[i]? = some a →
    io[i + 1]? = some b → a = e.needs b ∧ 0 ≤ a

/-- A ladder of stream counts for a decoding chain. -/
def DecLadder (chain : List (Decoder S)) (io : List Int) : Prop :=
  io.length = chain.length + 1 ∧
  ∀ (i : Nat) (d : Decoder S) (a b : Int), chain[i]? = some d → io[i]? = some a →
    io[i + 1]? = some b → b = d.yields a ∧ 0 ≤ b

/-- The number stage `i` of an encoding chain is asked to produce, walking back from the ports. -/
def wanted : List (Encoder S) → Int → Int
  | [], n => n
  | e :: es, n => e.needs (wanted es n)

/-- The number a decoding chain produces, walking forward from the ports. -/
def produced (chain : List (Decoder S)) (n : Int) : Int :=
  chain.foldl (fun a d => d.yields a) n

/-- Some stage of the encoding chain declares the configuration infeasible. -/
def EncInfeasible (chain : List (Encoder S)) (n : Int) : Prop :=
  ∃ (pre : List (Encoder S)) (e : Encoder S) (post : List (Encoder S)),
    chain = pre ++ e :: post ∧ e.needs (wanted post n) < 0

/-- Some stage of the decoding chain declares the configuration infeasible. -/
def DecInfeasible (chain : List (Decoder S)) (n : Int) : Prop :=
  ∃ (pre : List (Decoder S)) (d : Decoder S) (post : List (Decoder S)),
    chain = pre ++ d :: post ∧ d.yields (produced pre n) < 0

/-! ### Lemmas -/

/-- The suffix counts `[wanted chain n, wanted chain.tail n, ..., n]`. -/
def counts : List (Encoder S) → Int → List Int
  | [], n => [n]
  | e :: es, n => wanted (e :: es) n :: counts es n

theorem counts_length (chain : List (Encoder S)) (n : Int) :
    (counts chain n).length = chain.length + 1 := by
  induction chain with
  | nil => rfl
  | cons e es ih => simp [counts, ih]

theorem counts_getElem? (chain : List (Encoder S)) (n : Int) (i : Nat) (h : i ≤ chain.length) :
    (counts chain n)[i]? = some (wanted (chain.drop i) n) := by
  induction chain generalizing i with
  | nil =>
    have : i = 0 := by simpa using h
    subst this; rfl
  | cons e es ih =>
    cases i with
    | zero => rfl
    | succ i =>
      simp only [counts, List.getElem?_cons_succ, List.drop_succ_cons]
      exact ih i (by simpa using h)

theorem counts_head (chain : List (Encoder S)) (n : Int) :
    ∃ t, counts chain n = wanted chain n :: t := by
  cases chain with
  | nil => exact ⟨[], rfl⟩
  | cons e es => exact ⟨counts es n, rfl⟩

theorem infeasible_cons (e : Encoder S) (es : List (Encoder S)) (n : Int) :
    EncInfeasible (e :: es) n ↔ EncInfeasible es n ∨ e.needs (wanted es n) < 0 := by
  constructor
  · rintro ⟨pre, e', post, h, hn⟩
    cases pre with
    | nil => simp at h; obtain ⟨rfl, rfl⟩ := h; exact Or.inr hn
    | cons a pre => simp at h; exact Or.inl ⟨pre, e', post, h.2, hn⟩
  · rintro (⟨pre, e', post, h, hn⟩ | hn)
    · exact ⟨e :: pre, e', post, by simp [h], hn⟩
    · exact ⟨[], e, es, rfl, hn⟩

theorem collectEncLoop_append (a b : List (Encoder S)) (acc : List Int) :
    collectEncLoop (a ++ b) acc = (collectEncLoop a acc).bind (fun r => collectEncLoop b r) := by
  induction a generalizing acc with
  | nil => rfl
  | cons e es ih =>
    cases acc with
    | nil => rfl
    | cons h t =>
      simp only [List.cons_append, collectEncLoop]
      split
      · rfl
      · exact ih _

theorem collectEncLoop_spec (chain : List (Encoder S)) (n : Int) :
    (EncInfeasible chain n ∧ collectEncLoop chain.reverse [n] = .error .value) ∨
    (¬ EncInfeasible chain n ∧ collectEncLoop chain.reverse [n] = .ok (counts chain n)) := by
  induction chain with
  | nil =>
    right
    refine ⟨?_, rfl⟩
    rintro ⟨pre, e, post, h, _⟩
    simp at h
  | cons e es ih =>
    rw [List.reverse_cons, collectEncLoop_append, infeasible_cons]
    rcases ih with ⟨h, hr⟩ | ⟨h, hr⟩
    · left; exact ⟨Or.inl h, by rw [hr]; rfl⟩
    · obtain ⟨t, ht⟩ := counts_head es n
      by_cases hn : e.needs (wanted es n) < 0
      · left
        refine ⟨Or.inr hn, ?_⟩
        rw [hr, ht]
        simp [Except.bind, collectEncLoop, hn]
      · right
        refine ⟨by tauto, ?_⟩
        rw [hr]
        have : counts (e :: es) n = e.needs (wanted es n) :: counts es n := rfl
        rw [this, ht]
        simp [Except.bind, collectEncLoop, hn]

theorem collectEnc_ok (chain : List (Encoder S)) (n : Int) (h1 : 1 ≤ n)
    (hf : ¬ EncInfeasible chain n) : collectEnc chain n = .ok (counts chain n) := by
  rcases collectEncLoop_spec chain n with ⟨h, _⟩ | ⟨_, h⟩
  · exact absurd h hf
  · simp only [collectEnc, if_neg (by omega : ¬ n < 1), h]

theorem drop_of_getElem? {α : Type} (l : List α) (i : Nat) (e : α) (h : l[i]? = some e) :
    l.drop i = e :: l.drop (i + 1) ∧ i < l.length := by
  obtain ⟨hi, he⟩ := List.getElem?_eq_some_iff.mp h
  exact ⟨by rw [List.drop_eq_getElem_cons hi, he], hi⟩

theorem counts_ladder (chain : List (Encoder S)) (n : Int) (hf : ¬ EncInfeasible chain n) :
    EncLadder chain (counts chain n) := by
  refine ⟨counts_length chain n, ?_⟩
  intro i e a b he ha hb
  obtain ⟨hd, hi⟩ := drop_of_getElem? chain i e he
  rw [counts_getElem? chain n i (by omega)] at ha
  rw [counts_getElem? chain n (i + 1) (by omega)] at hb
  simp only [Option.some.injEq] at ha hb
  rw [hd] at ha
  subst hb
  refine ⟨ha.symm, ?_⟩
  by_contra hneg
  apply hf
  refine ⟨chain.take i, e, chain.drop (i + 1), ?_, ?_⟩
  · rw [← hd, List.take_append_drop]
  · have : a = e.needs (wanted (chain.drop (i + 1)) n) := ha.symm
    omega

theorem decInfeasible_cons (d : Decoder S) (ds : List (Decoder S)) (n : Int) :
    DecInfeasible (d :: ds) n ↔ d.yields n < 0 ∨ DecInfeasible ds (d.yields n) := by
  constructor
  · rintro ⟨pre, d', post, h, hn⟩
    cases pre with
    | nil => simp at h; obtain ⟨rfl, rfl⟩ := h; exact Or.inl hn
    | cons a pre =>
      simp at h; obtain ⟨rfl, rfl⟩ := h
      exact Or.inr ⟨pre, d', post, rfl, hn⟩
  · rintro (hn | ⟨pre, d', post, h, hn⟩)
    · exact ⟨[], d, ds, rfl, hn⟩
    · exact ⟨d :: pre, d', post, by simp [h], hn⟩

/-- The forward counts after each decoder. -/
def dcounts : List (Decoder S) → Int → List Int
  | [], _ => []
  | d :: ds, n => d.yields n :: dcounts ds (d.yields n)

theorem dcounts_length (chain : List (Decoder S)) (n : Int) :
    (dcounts chain n).length = chain.length := by
  induction chain generalizing n with
  | nil => rfl
  | cons d ds ih => simp [dcounts, ih]

theorem dcounts_getElem? (chain : List (Decoder S)) (n : Int) (i : Nat) (h : i ≤ chain.length) :
    (n :: dcounts chain n)[i]? = some (produced (chain.take i) n) := by
  induction chain generalizing n i with
  | nil =>
    have : i = 0 := by simpa using h
    subst this; rfl
  | cons d ds ih =>
    cases i with
    | zero => rfl
    | succ i =>
      simp only [List.getElem?_cons_succ, dcounts, List.take_succ_cons]
      rw [ih (d.yields n) i (by simpa using h)]
      rfl

theorem collectDecLoop_spec (chain : List (Decoder S)) (n : Int) :
    (DecInfeasible chain n ∧ collectDecLoop chain n = .error .value) ∨
    (¬ DecInfeasible chain n ∧ collectDecLoop chain n = .ok (dcounts chain n)) := by
  induction chain generalizing n with
  | nil =>
    right
    refine ⟨?_, rfl⟩
    rintro ⟨pre, e, post, h, _⟩
    simp at h
  | cons d ds ih =>
    rw [decInfeasible_cons]
    by_cases hn : d.yields n < 0
    · left; exact ⟨Or.inl hn, by simp [collectDecLoop, hn]⟩
    · rcases ih (d.yields n) with ⟨h, hr⟩ | ⟨h, hr⟩
      · left; exact ⟨Or.inr h, by simp [collectDecLoop, hn, hr, bind, Except.bind]⟩
      · right; exact ⟨by tauto, by simp [collectDecLoop, hn, hr, bind, Except.bind, dcounts]⟩

theorem dcounts_ladder (chain : List (Decoder S)) (n : Int) (hf : ¬ DecInfeasible chain n) :
    DecLadder chain (n :: dcounts chain n) := by
  refine ⟨by simp [dcounts_length], ?_⟩
  intro i d a b hd ha hb
  obtain ⟨hdr, hi⟩ := drop_of_getElem? chain i d hd
  rw [dcounts_getElem? chain n i (by omega)] at ha
  rw [dcounts_getElem? chain n (i + 1) (by omega)] at hb
  simp only [Option.some.injEq] at ha hb
  have hb' : b = d.yields a := by
    rw [← hb, ← ha, List.take_succ, hd]
    simp [produced]
  refine ⟨hb', ?_⟩
  by_contra hneg
  apply hf
  refine ⟨chain.take i, d, chain.drop (i + 1), ?_, ?_⟩
  · rw [← hdr, List.take_append_drop]
  · rw [ha]; omega

/-! ### C08 -/

/-- C08, transmit side: the stream counts are a consistent ladder ending at the requested number of
ports, and the call fails with `ValueError` exactly when the request is below one or a stage is
infeasible; there is no other failure. -/
theorem C08_transmit_ladder (chain : List (Encoder S)) (n : Int) :
    (collectEnc chain n = .error .value ↔ n < 1 ∨ EncInfeasible chain n) ∧
    (∀ io, collectEnc chain n = .ok io →
      EncLadder chain io ∧ io.getLast? = some n) ∧
    (∀ err, collectEnc chain n = .error err → err = .value) := by
  by_cases h1 : n < 1
  · have : collectEnc chain n = .error .value := by simp [collectEnc, h1]
    refine ⟨by simp [this, h1], ?_, ?_⟩
    · intro io h; rw [this] at h; cases h
    · intro err h; rw [this] at h; cases h; rfl
  · rcases collectEncLoop_spec chain n with ⟨h, hr⟩ | ⟨h, hr⟩
    · have : collectEnc chain n = .error .value := by simp [collectEnc, h1, hr]
      refine ⟨by simp [this, h], ?_, ?_⟩
      · intro io h; rw [this] at h; cases h
      · intro err h; rw [this] at h; cases h; rfl
    · have this : collectEnc chain n = .ok (counts chain n) := by simp [collectEnc, h1, hr]
      refine ⟨by simp [this, h, h1], ?_, ?_⟩
      · intro io hio
        rw [this] at hio
        cases hio
        refine ⟨counts_ladder chain n h, ?_⟩
        rw [List.getLast?_eq_getElem?, counts_length, Nat.add_sub_cancel,
          counts_getElem? chain n _ (Nat.le_refl _)]
        simp [wanted]
      · intro err h; rw [this] at h; cases h

/-- C08, receive side. -/
theorem C08_receive_ladder (chain : List (Decoder S)) (n : Int) :
    (collectDec chain n = .error .value ↔ n < 1 ∨ DecInfeasible chain n) ∧
    (∀ io, collectDec chain n = .ok io →
      DecLadder chain io ∧ io.head? = some n) ∧
    (∀ err, collectDec chain n = .error err → err = .value) := by
  by_cases h1 : n < 1
  · have : collectDec chain n = .error .value := by simp [collectDec, h1]
    refine ⟨by simp [this, h1], ?_, ?_⟩
    · intro io h; rw [this] at h; cases h
    · intro err h; rw [this] at h; cases h; rfl
  · rcases collectDecLoop_spec chain n with ⟨h, hr⟩ | ⟨h, hr⟩
    · have : collectDec chain n = .error .value := by
        simp [collectDec, h1, hr, bind, Except.bind]
      refine ⟨by simp [this, h], ?_, ?_⟩
      · intro io h; rw [this] at h; cases h
      · intro err h; rw [this] at h; cases h; rfl
    · have this : collectDec chain n = .ok (n :: dcounts chain n) := by
        simp [collectDec, h1, hr, bind, Except.bind]
      refine ⟨by simp [this, h, h1], ?_, ?_⟩
      · intro io hio
        rw [this] at hio
        cases hio
        exact ⟨dcounts_ladder chain n h, rfl⟩
      · intro err h; rw [this] at h; cases h

/-- Composition of the stages in chain order, stage `i` being asked for `io[i+1]` streams. -/
def runStages : List (S → Except PyErr S) → S → Except PyErr S
  | [], x => .ok x
  | f :: fs, x => (f x).bind (runStages fs)

theorem encodeLoop_eq (chain : List (Encoder S)) (n : Int) (x : S) :
    encodeLoop (chain.zip (counts chain n).tail) x =
      runStages (chain.zipIdx.map fun p =>
        fun y => p.1.encode y (wanted (chain.drop (p.2 + 1)) n)) x := by
  suffices H : ∀ (es : List (Encoder S)) (k : Nat), chain.drop k = es → ∀ x,
      encodeLoop (es.zip (counts es n).tail) x =
        runStages ((es.zipIdx k).map fun p =>
          fun y => p.1.encode y (wanted (chain.drop (p.2 + 1)) n)) x by
    simpa using H chain 0 (by simp) x
  intro es
  induction es with
  | nil => intro k _ x; rfl
  | cons e es ih =>
    intro k hk x
    have hk' : chain.drop (k + 1) = es := by
      rw [← List.drop_drop, hk]; rfl
    obtain ⟨t, ht⟩ := counts_head es n
    have := ih (k + 1) hk'
    rw [ht] at this
    simp only [counts, List.tail_cons, List.zipIdx_cons, List.map_cons, runStages, ht,
      List.zip_cons_cons, encodeLoop, hk', bind]
    congr 1
    funext y
    exact this y

/-- C08, what `encode_streams` does: with a feasible non-empty chain and the announced number of
input streams, every stage runs once, in chain order, and stage `i` is asked for exactly the number
of streams the stages behind it need; with any other stream count the call raises `ValueError`
before any stage runs. -/
theorem C08_encode_streams (numStreams : S → Int) (chain : List (Encoder S)) (ports : Int) (x : S)
    (hne : chain ≠ []) :
    encodeStreams numStreams chain ports x =
      if ports < 1 then .error .value else
      open Classical in
      if EncInfeasible chain ports ∨ numStreams x ≠ wanted chain ports then .error .value
      else runStages (chain.zipIdx.map fun p =>
        fun y => p.1.encode y (wanted (chain.drop (p.2 + 1)) ports)) x := by
  have hl : ¬ chain.length < 1 := by
    cases chain with
    | nil => exact absurd rfl hne
    | cons => simp
  by_cases h1 : ports < 1
  · simp [encodeStreams, hl, collectEnc, h1, bind, Except.bind]
  · rcases collectEncLoop_spec chain ports with ⟨h, hr⟩ | ⟨h, hr⟩
    · simp [encodeStreams, hl, collectEnc, h1, hr, h, bind, Except.bind]
    · have hc := collectEnc_ok chain ports (by omega) h
      have hloop := encodeLoop_eq chain ports x
      obtain ⟨t, ht⟩ := counts_head chain ports
      rw [ht] at hc hloop
      simp only [List.tail_cons] at hloop
      by_cases hs : numStreams x = wanted chain ports
      · simp [encodeStreams, hl, hc, h1, h, hs, bind, Except.bind, hloop]
      · simp [encodeStreams, hl, hc, h1, h, hs, bind, Except.bind]

theorem decodeLoop_eq (chain : List (Decoder S)) (n : Int) (x : S) :
    decodeLoop (chain.zip (dcounts chain n)) x =
      runStages (chain.zipIdx.map fun p =>
        fun y => p.1.decode y (produced (chain.take (p.2 + 1)) n)) x := by
  suffices H : ∀ (ds : List (Decoder S)) (k : Nat), chain.drop k = ds → ∀ x,
      decodeLoop (ds.zip (dcounts ds (produced (chain.take k) n))) x =
        runStages ((ds.zipIdx k).map fun p =>
          fun y => p.1.decode y (produced (chain.take (p.2 + 1)) n)) x by
    simpa [produced] using H chain 0 (by simp) x
  intro ds
  induction ds with
  | nil => intro k _ x; rfl
  | cons d ds ih =>
    intro k hk x
    have hk' : chain.drop (k + 1) = ds := by
      rw [← List.drop_drop, hk]; rfl
    have hd : chain[k]? = some d := by
      have := congrArg (fun l => l[0]?) hk
      simpa [List.getElem?_drop] using this
    have hp : d.yields (produced (chain.take k) n) = produced (chain.take (k + 1)) n := by
      rw [List.take_succ, hd]; simp [produced]
    have := ih (k + 1) hk'
    simp only [dcounts, List.zipIdx_cons, List.map_cons, runStages, List.zip_cons_cons,
      decodeLoop, bind, hp]
    congr 1
    funext y
    exact this y

/-- C08, what `decode_streams` does: every stage runs once, in chain order, and is asked for what
the ladder says. The number of streams of the argument itself is *not* compared with the number of
ports although the docstring promises a `ValueError`, see `C08_decode_mismatch_unnoticed_fails`. -/
theorem C08_decode_streams (chain : List (Decoder S)) (ports : Int) (x : S) (hne : chain ≠ []) :
    decodeStreams chain ports x =
      if ports < 1 then .error .value else
      open Classical in
      if DecInfeasible chain ports then .error .value
      else runStages (chain.zipIdx.map fun p =>
        fun y => p.1.decode y (produced (chain.take (p.2 + 1)) ports)) x := by
  have hl : ¬ chain.length < 1 := by
    cases chain with
    | nil => exact absurd rfl hne
    | cons => simp
  by_cases h1 : ports < 1
  · simp [decodeStreams, hl, collectDec, h1, bind, Except.bind]
  · rcases collectDecLoop_spec chain ports with ⟨h, hr⟩ | ⟨h, hr⟩
    · simp [decodeStreams, hl, collectDec, h1, hr, h, bind, Except.bind]
    · simp [decodeStreams, hl, collectDec, h1, hr, h, bind, Except.bind, decodeLoop_eq]

/-- C08, announced input streams: `num_transmit_input_streams` is the head of the ladder, i.e. the
number `encode_streams` insists on. -/
theorem C08_announced_input (chain : List (Encoder S)) (n : Int) (h1 : 1 ≤ n)
    (hf : ¬ EncInfeasible chain n) :
    numTransmitInputStreams chain n = .ok (wanted chain n) := by
  cases chain with
  | nil => rfl
  | cons e es =>
    rw [numTransmitInputStreams, if_neg (by simp), collectEnc_ok _ _ h1 hf]
    rfl

/-- C08, announced output streams of a decoding chain. -/
theorem C08_announced_output (chain : List (Decoder S)) (n : Int) (h1 : 1 ≤ n)
    (hf : ¬ DecInfeasible chain n) :
    numReceiveOutputStreams chain n = .ok (produced chain n) := by
  cases hc : chain with
  | nil => rfl
  | cons e es =>
    rw [← hc]
    have hl : ¬ chain.length < 1 := by simp [hc]
    rcases collectDecLoop_spec chain n with ⟨h, _⟩ | ⟨_, hr⟩
    · exact absurd h hf
    · have hg : (n :: dcounts chain n).getLast? = some (produced chain n) := by
        rw [List.getLast?_eq_getElem?]
        simp only [List.length_cons, dcounts_length, Nat.add_sub_cancel]
        rw [dcounts_getElem? chain n _ (Nat.le_refl _), List.take_length]
      simp only [numReceiveOutputStreams, if_neg hl, collectDec, if_neg (by omega : ¬ n < 1), hr,
        bind, Except.bind, hg]

/-- A decoder that keeps the number of streams and tags the signal. -/
def tagDecoder : Decoder (List Int) := ⟨fun n => n, fun x n => .ok (x ++ [n])⟩

/-- An encoder with the stream counts of `Alamouti` (`space_time_block_coding.py` 125-126). -/
def alamoutiLike : Encoder (List Int) := ⟨fun n => if n = 2 then 1 else -1, fun x n => .ok (x ++ [n])⟩

/-- An encoder with the stream counts of `DFT` (`dft.py`). -/
def dftLike : Encoder (List Int) := ⟨fun n => n, fun x n => .ok (x ++ [n])⟩

example : collectEnc [dftLike, alamoutiLike, dftLike] 2 = .ok [1, 1, 2, 2] := by decide
example : ¬ EncInfeasible [dftLike, alamoutiLike] 2 := by
  simp [infeasible_cons, wanted, alamoutiLike, dftLike]
  rintro ⟨pre, e, post, h, _⟩; simp at h
example : EncInfeasible [dftLike, alamoutiLike] 3 :=
  ⟨[dftLike], alamoutiLike, [], rfl, by simp [wanted, alamoutiLike]⟩
example : encodeStreams (fun _ => 1) [dftLike, alamoutiLike, dftLike] 2 [] = .ok [1, 2, 2] := by
  decide
example : encodeStreams (fun _ => 2) [dftLike, alamoutiLike, dftLike] 2 [] = .error .value := by
  decide

/-- C08 (negation of the docstring of `decode_streams`, `core/precoding.py` 392-394): a signal with
the wrong number of streams is decoded without `ValueError`; the outcome does not depend on the
number of streams the signal has. -/
theorem C08_decode_mismatch_unnoticed_fails :
    ∃ (chain : List (Decoder (List Int))) (ports : Int) (x : List Int),
      chain ≠ [] ∧ (x.length : Int) ≠ ports ∧ ∃ y, decodeStreams chain ports x = .ok y :=
  ⟨[tagDecoder], 2, [7, 8, 9], by simp, by decide, [7, 8, 9, 2], by decide⟩

end Verif.Precoding
