import Verif.Io.HdfOrder

/-!
# C32: where the round trip fails
-/

namespace Verif.Io

/-! ### The positive theorems are not vacuous -/

/-- Root 0 with a scalar, an array, an object 1 and a sequence of 1, 2 and 1; 1 shares the array and
refers to 2. -/
def sample : Nat → Obj Nat (List Nat) Nat
  | 0 => ⟨0, [("gain", .scalar 5), ("taps", .arr 40 [1, 2]), ("first", .obj 1), ("missing", .absent),
      ("all", .seq [1, 2, 1])]⟩
  | 1 => ⟨1, [("taps", .arr 40 [1, 2]), ("next", .obj 2)]⟩
  | _ => ⟨2, [("level", .scalar 7)]⟩

/-- Schema of the sample's classes. -/
def sampleSchema : Nat → List (String × Kind)
  | 0 => [("gain", .scalar), ("taps", .arr), ("first", .obj), ("missing", .obj), ("all", .seq)]
  | 1 => [("taps", .arr), ("next", .obj)]
  | _ => [("level", .scalar)]

/-- The same with the root's fields read in another order. -/
def sampleSchema' : Nat → List (String × Kind)
  | 0 => [("all", .seq), ("first", .obj), ("taps", .arr), ("missing", .obj), ("gain", .scalar)]
  | 1 => [("taps", .arr), ("next", .obj)]
  | _ => [("level", .scalar)]

theorem sample_sound : Sound sample sampleSchema (fun r => 2 - r) (fun _ => [1, 2]) := by
  constructor
  · intro r
    match r with
    | 0 => decide
    | 1 => decide
    | _ + 2 => simp [sample]
  · intro r
    match r with
    | 0 => simp [sample, sampleSchema, Fits]
    | 1 => simp [sample, sampleSchema, Fits]
    | _ + 2 => simp [sample, sampleSchema, Fits]
  · intro r
    match r with
    | 0 => simp [sample, Refers]
    | 1 => simp [sample, Refers]
    | _ + 2 => simp [sample, Refers]
  · intro r
    match r with
    | 0 => simp [sample]
    | 1 => simp [sample]
    | _ + 2 => simp [sample]

example : ∃ w : Writer Nat (List Nat) Nat, writeRoot sample (fun _ => true) 5 0 = .ok w :=
  C32_write_succeeds (rank := fun r => 2 - r) (fun _ => rfl) sample_sound.acyclic 5 0 (by decide)

/-- The objects and the root read back from the sample. -/
def sampleResult (sc : Nat → List (String × Kind)) :
    Option (List (Nat × List (String × Field Nat (List Nat))) × List (String × Field Nat (List Nat))) :=
  match writeRoot sample (fun _ => true) 5 0 with
  | .error _ => none
  | .ok w => match readRoot w.file sc (fun _ => true) 5 0 with
    | .error _ => none
    | .ok (s, fs) => some (s.objs.map (fun o => (o.tag, o.fields)), fs)

example : sampleResult sampleSchema = some
    ([(2, [("level", .scalar 7)]), (1, [("taps", .arr 0 [1, 2]), ("next", .obj 0)])],
     [("gain", .scalar 5), ("taps", .arr 0 [1, 2]), ("first", .obj 1), ("missing", .absent),
      ("all", .seq [1, 0, 1])]) := by rfl

example : Reads sample sampleSchema' := by
  intro r
  match r with
  | 0 =>
    refine ⟨[("all", .seq [1, 2, 1]), ("first", .obj 1), ("taps", .arr 40 [1, 2]), ("missing", .absent),
      ("gain", .scalar 5)], ?_, by simp [sampleSchema', sample, Fits]⟩
    show List.Perm _ [("gain", Field.scalar 5), ("taps", .arr 40 [1, 2]), ("first", .obj 1),
      ("missing", .absent), ("all", .seq [1, 2, 1])]
    refine (List.Perm.trans ?_ (List.reverse_perm _))
    simp only [List.reverse_cons, List.reverse_nil, List.nil_append, List.cons_append]
    refine List.Perm.cons _ ?_
    exact (List.perm_append_comm (l₁ := [("first", Field.obj 1), ("taps", .arr 40 [1, 2])])
      (l₂ := [("missing", .absent)])).append_right _ |>.trans (by
        exact List.Perm.cons _ (List.Perm.refl _))
  | 1 => exact ⟨_, List.Perm.refl _, by simp [sample, sampleSchema', Fits]⟩
  | _ + 2 => exact ⟨_, List.Perm.refl _, by simp [sample, sampleSchema', Fits]⟩

/-! ### Negations -/

/-- **C32** fails for classes reading their fields in another order than they write them: the root of
the sample shares one object between a field and a sequence; read in the second order the field gets a
copy of its own. -/
theorem C32_order_identity_fails :
    ∃ (objs : List (Nat × List (String × Field Nat (List Nat)))) (a b : Nat) (rest : List (String × Field Nat (List Nat))),
      sampleResult sampleSchema' = some (objs, ("all", .seq [a, b, a]) :: ("first", .obj 3) :: rest) ∧
      a ≠ 3 ∧ (objs[a]?.map (·.1)) = some 1 ∧ (objs[3]?.map (·.1)) = some 1 := by
  refine ⟨_, _, _, _, rfl, ?_, ?_, ?_⟩ <;> decide

/-- An object referring to itself. -/
def selfRef : Nat → Obj Unit Unit Unit
  | 0 => ⟨(), [("child", .obj 1)]⟩
  | _ => ⟨(), [("child", .obj 1)]⟩

/-- The file written for it. -/
def selfFile : File Unit Unit Unit :=
  match writeRoot selfRef (fun _ => true) 3 0 with
  | .ok w => w.file
  | .error _ => ⟨fun _ => none, fun _ => none, fun _ => none, fun _ => 0⟩

/-- **C32** fails for reference cycles: the writer follows the cycle once and succeeds, but the reader,
which enters an object into its cache only when it is complete, never ends, whatever the recursion
limit. -/
theorem C32_cycle_fails :
    (∃ w, writeRoot selfRef (fun _ => true) 3 0 = .ok w ∧ w.file = selfFile) ∧
    ∀ R, ∃ e, readRoot selfFile (fun _ => [("child", Kind.obj)]) (fun _ => true) R () = .error e ∧
      e = .recursion := by
  refine ⟨⟨_, rfl, rfl⟩, ?_⟩
  have key : ∀ R (s : Reader Unit Unit Unit), s.cache [.field "child"] = none →
      readObj selfFile (fun _ => [("child", Kind.obj)]) (fun _ => true) R (.field "child")
        [.field "child"] s = .error .recursion := by
    intro R
    induction R with
    | zero => intro s _; rfl
    | succ R ih =>
      intro s hs
      have h1 : selfFile.links [.field "child", .field "child"] = some (.soft [.field "child"]) := rfl
      have h2 : selfFile.tag [.field "child"] = some () := rfl
      simp only [readObj, h1, hs, readGroup, h2, readFields, readField, ih s hs]
      rfl
  intro R
  refine ⟨_, ?_, rfl⟩
  have h1 : selfFile.links [.field "child"] = some .group := rfl
  have h2 : selfFile.links [.field "child", .field "child"] = some (.soft [.field "child"]) := rfl
  have h3 : selfFile.tag [.field "child"] = some () := rfl
  cases R with
  | zero => simp only [readRoot, readFields, readField, h1, readObj]
  | succ R =>
    have := key R newReader rfl
    simp only [readRoot, readFields, readField, h1, readObj, readGroup, h3, h2, this]
    rfl

/-- An object writing two temporary arrays, as `CFARDetector.serialize` (`radar/detection.py` 635-637)
and `UsrpDevice.serialize` (`hardware_loop/uhd/usrp.py` 650-651) do: the first is released before the
second is created, which may therefore be at the same address. -/
def temporaries {A : Type} (v v' : A) : Nat → Obj Unit A Unit :=
  fun _ => ⟨(), [("num_training_cells", .arr 7 v), ("num_guard_cells", .arr 7 v')]⟩

/-- **C32** fails for temporary arrays: the writer identifies arrays by their address, a second array
at the address of a released one is replaced by the first. -/
theorem C32_temporary_arrays_fails {A : Type} (v v' : A) :
    ∃ w s, writeRoot (temporaries v v') (fun _ => true) 1 0 = .ok w ∧
      readRoot w.file (fun _ => [("num_training_cells", Kind.arr), ("num_guard_cells", Kind.arr)])
        (fun _ => true) 1 () =
      .ok (s, [("num_training_cells", .arr 0 v), ("num_guard_cells", .arr 0 v)]) :=
  ⟨_, _, rfl, rfl⟩

/-- **C32** fails for a root object with an array named `arrays`: it is not written, as the group of
that name already exists. -/
theorem C32_arrays_field_fails {A : Type} (v : A) :
    ∃ w, writeRoot (fun _ => (⟨(), [("arrays", .arr 7 v)]⟩ : Obj Unit A Unit)) (fun _ => true) 1 0 = .ok w ∧
      readRoot w.file (fun _ => [("arrays", Kind.arr)]) (fun _ => true) 1 () = .error .type :=
  ⟨_, rfl, rfl⟩

/-- Two scalar objects. -/
def pairHeap : Nat → Obj Nat Unit Unit := fun r => ⟨(), [("level", .scalar r)]⟩

/-- **C32** fails for sequences written again to the same group (a second `serialize` to an open file,
or a subclass replacing its base's sequence): the comment in the code says the old group is deleted,
but nothing is removed from the file and the new objects are dropped. -/
theorem C32_rewritten_sequence_fails :
    ∃ w, (do
        let w1 ← writeField (writeObj pairHeap (fun _ => true) 2) [] newWriter ("items", .seq [1])
        writeField (writeObj pairHeap (fun _ => true) 2) [] w1 ("items", .seq [2])) = .ok w ∧
      ((readRoot w.file (fun _ => [("items", Kind.seq)]) (fun _ => true) 2 ()).toOption.map
        (fun x => x.1.objs.map (·.fields.length))) = some [1] ∧
      w.file.attr [.field "level", .idx 0, .field "items"] = some 1 ∧
      w.file.kids [.field "items"] = 1 :=
  ⟨_, rfl, rfl, rfl, rfl⟩

/-! ### Classes which do not write all of their state -/

/-- State of a `PskQamMapping` given by its constructor, `modem/tools/psk_qam_mapping.py` 41-75. -/
structure PskQam where
  order : Nat
  mapping : Option Nat
  softOutput : Bool
  isComplex : Bool

/-- `PskQamMapping.serialize`, `modem/tools/psk_qam_mapping.py` 526-530. -/
def PskQam.serialize (m : PskQam) : List (String × Field Nat Nat) :=
  [("modulation_order", .scalar m.order),
   ("mapping", match m.mapping with
     | none => .absent
     | some v => .arr 0 v)]

/-- `PskQamMapping.Deserialize`, `modem/tools/psk_qam_mapping.py` 532-538. -/
def PskQam.deserialize : List (String × Field Nat Nat) → Option PskQam
  | [("modulation_order", .scalar n), ("mapping", .absent)] => some ⟨n, none, false, true⟩
  | [("modulation_order", .scalar n), ("mapping", .arr _ v)] => some ⟨n, some v, false, true⟩
  | _ => none

/-- **C32** for PSK/QAM mappings: exactly hard-deciding complex mappings survive. -/
theorem C32_psk_qam_iff (m : PskQam) :
    PskQam.deserialize m.serialize = some m ↔ m.softOutput = false ∧ m.isComplex = true := by
  obtain ⟨n, o, s, c⟩ := m
  cases o <;> simp [PskQam.serialize, PskQam.deserialize, eq_comm]

/-- A PAM mapping (`is_complex=False`) is read back as a QAM mapping. -/
theorem C32_psk_qam_fails : ∃ m : PskQam, PskQam.deserialize m.serialize ≠ some m :=
  ⟨⟨4, none, false, false⟩, fun h => by
    have := (C32_psk_qam_iff _).mp h
    exact absurd this.2 (by decide)⟩

/-- State of an `EncoderManager` given by its constructor, `fec/coding.py` 163-194. -/
structure Manager where
  encoders : List Nat
  allowPadding : Bool
  allowTruncating : Bool

/-- `EncoderManager.serialize`, `fec/coding.py` 467-468. -/
def Manager.serialize (m : Manager) : List (String × Field Nat Nat) := [("encoders", .seq m.encoders)]

/-- `EncoderManager.Deserialize`, `fec/coding.py` 470-477; the flags are the constructor's defaults.
The sorting by `add_encoder` is not modelled here (C04). -/
def Manager.deserialize : List (String × Field Nat Nat) → Option Manager
  | [("encoders", .seq rs)] => some ⟨rs, true, true⟩
  | _ => none

/-- **C32** for encoder managers: exactly those which pad and truncate survive. -/
theorem C32_manager_iff (m : Manager) :
    Manager.deserialize m.serialize = some m ↔ m.allowPadding = true ∧ m.allowTruncating = true := by
  obtain ⟨rs, a, b⟩ := m
  simp [Manager.serialize, Manager.deserialize, eq_comm]

/-- A manager refusing to pad is read back as one that pads. -/
theorem C32_manager_fails : ∃ m : Manager, Manager.deserialize m.serialize ≠ some m :=
  ⟨⟨[], false, true⟩, fun h => by
    have := (C32_manager_iff _).mp h
    exact absurd this.1 (by decide)⟩

/-! ### Ranges -/

/-- Values accepted by `serialize_range`: `None`, a tuple, a float, or something else such as an
integer (`other`). -/
inductive RangeValue
  | none
  | pair (a b : Nat)
  | scalar (a : Nat)
  | other (a : Nat)

/-- `serialize_range`, `core/factory.py` 484-499: the attributes `name`, `name_min`, `name_max`. -/
def writeRange : RangeValue → Except PyErr (Option Nat × Option Nat × Option Nat)
  | .none => .ok (Option.none, Option.none, Option.none)
  | .pair a b => .ok (Option.none, some a, some b)
  | .scalar a => .ok (some a, Option.none, Option.none)
  | .other _ => .error .value

/-- `deserialize_range` with the default `None`, `core/factory.py` 784-812. -/
def readRange : Option Nat × Option Nat × Option Nat → RangeValue
  | (some a, _, _) => .scalar a
  | (Option.none, some a, some b) => .pair a b
  | _ => .none

/-- **C32** for ranges: whatever is written is read back, and exactly values that are neither a tuple
nor a float (an integer) are refused. -/
theorem C32_range (v : RangeValue) :
    (∀ a, v ≠ .other a) ∧ (∃ f, writeRange v = .ok f ∧ readRange f = v) ∨
    (∃ a, v = .other a) ∧ writeRange v = .error .value := by
  cases v <;> simp [writeRange, readRange]

end Verif.Io
