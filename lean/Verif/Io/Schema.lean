import Mathlib.Data.Rat.Floor
import Verif.Np

/-!
# Storing and restoring the configuration of one object (C122)

`Verif.Io.Hdf` (C32) models the file below an object: groups, links and caches, for objects that name
the same fields when writing and when reading.  Here the fields are the ones the classes of the library
really name.  A class is described by its constructor's parameters, by the fields its `serialize`
writes and by the fields its `Deserialize` reads and hands to a constructor; `Verif.Io.Classes` lists
the classes.  References to other objects are values here (their own contents are C32's subject).

Simplifications: a constructor is assumed to keep every argument under the name of its parameter (its
own normalisations and checks belong to the properties of the respective class); the shape of an array
is not recorded (HDF keeps it); an enumeration written as its integer value is an integer.
-/

namespace Verif.Schema

/-- What a field holds. -/
inductive Kind
  | flt | int | flag | txt | cpx | ints | flts | cpxs | obj | seq | range
  deriving DecidableEq, Repr

/-- Values of parameters.  `flt none` is `nan`; `obj` and `seq` carry identities of objects. -/
inductive Val
  | none
  | flt (x : Option ℚ)
  | int (z : ℤ)
  | flag (b : Bool)
  | txt (s : String)
  | cpx (x y : ℚ)
  | ints (l : List ℤ)
  | flts (l : List ℚ)
  | cpxs (l : List (ℚ × ℚ))
  | obj (id : Nat)
  | seq (ids : List Nat)
  | range (a b : ℚ)
  deriving DecidableEq

/-- The values of a kind, other than `None`. -/
def Kind.has : Kind → Val → Bool
  | .flt, .flt _ => true
  | .int, .int _ => true
  | .flag, .flag _ => true
  | .txt, .txt _ => true
  | .cpx, .cpx _ _ => true
  | .ints, .ints _ => true
  | .flts, .flts _ => true
  | .cpxs, .cpxs _ => true
  | .obj, .obj _ => true
  | .seq, .seq _ => true
  | .range, .range _ _ => true
  | .range, .flt _ => true
  | _, _ => false

/-- Arrays, objects and sequences are members of the group, everything else is an attribute of the
group: `core/factory.py` 889-994 (`create_dataset`, `create_group` against `attrs.create`). -/
def Kind.member : Kind → Bool
  | .ints | .flts | .cpxs | .obj | .seq => true
  | _ => false

/-- What the libraries below do in the cases the code does not decide: writing `None` as a floating
point attribute, turning an array of complex numbers into one of real numbers, and the text of a value
that is not a text. -/
structure Lib where
  nullFloat : Except PyErr (Option ℚ)
  narrow : List (ℚ × ℚ) → Except PyErr (List ℚ)
  text : Val → String

/-- A parameter of a constructor, or another attribute `serialize` looks at. -/
structure Param where
  name : String
  kind : Kind
  /-- the attribute may be `None` -/
  nullable : Bool := false
  /-- the parameter has no default -/
  required : Bool := false
  deriving DecidableEq

/-- The parameter accepts the value. -/
def Param.fits (p : Param) (v : Val) : Prop := p.kind.has v = true ∨ (p.nullable = true ∧ v = .none)

/-- One call of the serialization process within `serialize`.  `guard` is the test `is not None` around
it; `stored` is the kind of array the value is converted to. -/
structure Write where
  key : String
  kind : Kind
  attr : String
  guard : Bool := false
  stored : Kind := kind
  deriving DecidableEq

/-- What reading a missing field gives: an error, `None`, the default of the parameter (the class
constant both the signature and `Deserialize` name), the empty list. -/
inductive Dflt
  | required | null | standard | empty
  deriving DecidableEq

/-- One argument `Deserialize` hands to the constructor: a field, or a constant. -/
inductive Read
  | field (key : String) (kind : Kind) (param : String) (dflt : Dflt)
  | const (param : String) (v : Val)
  deriving DecidableEq

/-- The parameter an argument is meant for. -/
def Read.param : Read → String
  | .field _ _ p _ => p
  | .const p _ => p

/-- The description of a class. -/
structure ClassDesc where
  name : String
  params : List Param
  /-- attributes which `serialize` reads and which are not parameters -/
  extras : List Param := []
  writes : List Write
  reads : List Read
  /-- the class `Deserialize` instantiates -/
  builds : String := name

/-- An object: the value of each of its attributes. -/
abbrev Config := String → Val

/-- The group of one object: attributes (`false`) and members (`true`) by name. -/
abbrev Group := Bool → String → Option Val

/-- `None` handed to the serialization process, `core/factory.py` 405-440, 484-499, 889-1001: the
attributes convert it with numpy, `serialize_range` writes nothing, arrays have no `shape`, objects have
to be serializable, sequences are enumerated. -/
def writeNull (lib : Lib) : Kind → Except PyErr (Option Val)
  | .flt | .cpx => lib.nullFloat.map fun x => some (.flt x)
  | .int | .flag | .txt => .error .type
  | .range => .ok Option.none
  | .ints | .flts | .cpxs => .error .attribute
  | .obj => .error .runtime
  | .seq => .error .type

/-- The stored form of a value: flags are integers, integers may be converted to floating point
numbers. -/
def store (k : Kind) : Val → Val
  | .flag b => .int (if b then 1 else 0)
  | .ints l => if k = .flts then .flts (l.map fun z : ℤ => (z : ℚ)) else .ints l
  | v => v

/-- The stored form of an attribute: nothing if the guard hides it. -/
def encode (lib : Lib) (w : Write) (v : Val) : Except PyErr (Option Val) :=
  if v = .none then
    if w.guard then .ok Option.none else writeNull lib w.kind
  else if w.kind.has v then .ok (some (store w.stored v))
  else .error .type

/-- Writing one field, `core/factory.py` 889-994: attributes are overwritten, members which exist are
left as they are. -/
def put (w : Write) (v : Option Val) (g : Group) : Group :=
  match v with
  | Option.none => g
  | some x => fun m k =>
      if m = w.kind.member ∧ k = w.key then
        if m = true ∧ (g m k).isSome then g m k else some x
      else g m k

/-- `serialize`: the writes in turn.  An attribute the object does not have raises. -/
def writeAll (lib : Lib) (attrs : List Param) : List Write → Config → Group → Except PyErr Group
  | [], _, g => .ok g
  | w :: ws, o, g =>
      if attrs.any (fun p => p.name = w.attr) then
        match encode lib w (o w.attr) with
        | .error e => .error e
        | .ok v => writeAll lib attrs ws o (put w v g)
      else .error .attribute

/-- Reading a stored value, `core/factory.py` 784-812, 1066-1220: scalars have to be of the kind asked
for, arrays are converted, flags are the `bool` of integers. -/
def convert (lib : Lib) : Kind → Val → Except PyErr Val
  | .flt, .flt x => .ok (.flt x)
  | .int, .int z => .ok (.int z)
  | .flag, .int z => .ok (.flag (z ≠ 0))
  | .txt, .txt s => .ok (.txt s)
  | .txt, v => .ok (.txt (lib.text v))
  | .cpx, .cpx x y => .ok (.cpx x y)
  | .ints, .ints l => .ok (.ints l)
  | .ints, .flts l => .ok (.ints (l.map fun x : ℚ => if 0 ≤ x then ⌊x⌋ else ⌈x⌉))
  | .flts, .flts l => .ok (.flts l)
  | .flts, .ints l => .ok (.flts (l.map fun z : ℤ => (z : ℚ)))
  | .flts, .cpxs l => (lib.narrow l).map .flts
  | .cpxs, .cpxs l => .ok (.cpxs l)
  | .cpxs, .flts l => .ok (.cpxs (l.map fun x : ℚ => (x, (0 : ℚ))))
  | .cpxs, .ints l => .ok (.cpxs (l.map fun z : ℤ => ((z : ℚ), 0)))
  | .obj, .obj i => .ok (.obj i)
  | .seq, .seq l => .ok (.seq l)
  | .range, .flt x => .ok (.flt x)
  | .range, .range a b => .ok (.range a b)
  | _, _ => .error .runtime

/-- A missing field, `core/factory.py` 731-737, 1072-1079, 1094-1134, 1197-1201.  A missing text that is
required is the text `None`. -/
def missing (k : Kind) (d : Val) : Dflt → Except PyErr Val
  | .required => if k = .txt then .ok (.txt "None") else .error .runtime
  | .null => .ok .none
  | .standard => .ok d
  | .empty => .ok (.seq [])

/-- One argument. -/
def fetch (lib : Lib) (dflt : Config) (g : Group) : Read → Except PyErr Val
  | .const _ v => .ok v
  | .field key kind param d =>
      match g kind.member key with
      | Option.none => missing kind (dflt param) d
      | some s => convert lib kind s

/-- The arguments, by parameter; an argument given again replaces the earlier one (`dict.update`). -/
def readAll (lib : Lib) (dflt : Config) (g : Group) : List Read → (String → Option Val) →
    Except PyErr (String → Option Val)
  | [], a => .ok a
  | r :: rs, a =>
      match fetch lib dflt g r with
      | .error e => .error e
      | .ok v => readAll lib dflt g rs (fun q => if q = r.param then some v else a q)

/-- Calling the constructor: arguments it does not know and parameters that are missing raise
`TypeError`. -/
def construct (c : ClassDesc) (dflt : Config) (a : String → Option Val) : Except PyErr Config :=
  if c.reads.any (fun r => !c.params.any (fun p => p.name = r.param)) then .error .type
  else if c.params.any (fun p => p.required && (a p.name).isNone) then .error .type
  else .ok fun q => (a q).getD (dflt q)

/-- Store an object and restore it: the class of the restored object and its parameters. -/
def restore (lib : Lib) (dflt : Config) (c : ClassDesc) (o : Config) :
    Except PyErr (String × Config) :=
  match writeAll lib (c.params ++ c.extras) c.writes o (fun _ _ => Option.none) with
  | .error e => .error e
  | .ok g =>
    match readAll lib dflt g c.reads (fun _ => Option.none) with
    | .error e => .error e
    | .ok a =>
      match construct c dflt a with
      | .error e => .error e
      | .ok o' => .ok (c.builds, o')

/-- The object has attributes of the kinds the class declares. -/
def ClassDesc.Fits (c : ClassDesc) (o : Config) : Prop :=
  ∀ p ∈ c.params ++ c.extras, p.fits (o p.name)

/-! ### Checks on descriptions -/

/-- The write whose field the argument reads. -/
def ClassDesc.source (c : ClassDesc) (m : Bool) (k : String) : Option Write :=
  c.writes.find? fun w => w.kind.member = m ∧ w.key = k

/-- No write fails on fitting objects, and fields written twice are written alike. -/
def ClassDesc.writesOk (c : ClassDesc) : Bool :=
  (c.writes.all fun w => (c.params ++ c.extras).any fun p =>
    p.name = w.attr && p.kind = w.kind && (!p.nullable || w.guard)) &&
  (c.writes.all fun w => c.writes.all fun w' =>
    !(w.kind.member = w'.kind.member && w.key = w'.key) || w = w')

/-- Reading what was stored cannot fail: kinds of writes and reads that agree or convert. -/
def readable : Kind → Kind → Kind → Bool
  | .ints, .flts, .ints | .ints, .flts, .flts | .ints, .ints, .flts => true
  | k, s, r => k = s && k = r

/-- Reading gives back what was written. -/
def faithful : Kind → Kind → Kind → Bool
  | .ints, .flts, .ints => true
  | k, s, r => k = s && k = r

/-- Every argument can be read and is known, no parameter is given twice differently, every required
parameter is given. -/
def ClassDesc.readsOk (c : ClassDesc) : Bool :=
  (c.reads.all fun r => (c.params.any fun p => p.name = r.param) &&
    match r with
    | .const _ _ => true
    | .field key kind _ d =>
      match c.source kind.member key with
      | Option.none => d ≠ .required
      | some w => readable w.kind w.stored kind && (!w.guard || d ≠ .required)) &&
  (c.reads.all fun r => c.reads.all fun r' => r.param ≠ r'.param || r = r') &&
  c.params.all fun p => !p.required || c.reads.any fun r => r.param = p.name

/-- The parameter is restored. -/
def ClassDesc.kept (c : ClassDesc) (p : Param) : Bool :=
  c.reads.any fun r =>
    match r with
    | .const _ _ => false
    | .field key kind q d =>
      q = p.name &&
      match c.source kind.member key with
      | Option.none => false
      | some w => w.attr = p.name && faithful w.kind w.stored kind && (!w.guard || d = .null)

/-- The parameter is given a value that does not depend on the object. -/
def ClassDesc.lost (c : ClassDesc) (p : Param) : Bool :=
  c.reads.all fun r =>
    r.param ≠ p.name ||
    match r with
    | .const _ _ => true
    | .field key kind _ _ => (c.source kind.member key).isNone

/-- The value of a parameter that is lost. -/
def ClassDesc.fallback (c : ClassDesc) (dflt : Config) (p : String) : Val :=
  match c.reads.find? fun r => r.param = p with
  | Option.none => dflt p
  | some (.const _ v) => v
  | some (.field _ _ _ .null) => .none
  | some (.field _ _ _ .empty) => .seq []
  | some (.field _ _ _ _) => dflt p

/-! ### The contents of the group -/

/-- What the write leaves in its slot. -/
def slot (lib : Lib) (o : Config) (w : Write) : Option Val :=
  match encode lib w (o w.attr) with
  | .ok v => v
  | .error _ => Option.none

theorem writeAll_slot (lib : Lib) (attrs : List Param) (o : Config) (m : Bool) (k : String) (w0 : Write)
    (hm : w0.kind.member = m) (hk : w0.key = k) : ∀ (ws : List Write) (g g' : Group),
    (∀ w ∈ ws, w.kind.member = m → w.key = k → w = w0) →
    writeAll lib attrs ws o g = .ok g' → (g m k = Option.none ∨ g m k = slot lib o w0) →
    g' m k = if w0 ∈ ws then slot lib o w0 else g m k := by
  intro ws
  induction ws with
  | nil =>
    intro g g' _ h _
    simp only [writeAll, Except.ok.injEq] at h
    simp [h]
  | cons w ws ih =>
    intro g g' hu h hg
    rw [writeAll] at h
    by_cases ha : attrs.any (fun p => p.name = w.attr)
    · rw [if_pos ha] at h
      cases he : encode lib w (o w.attr) with
      | error e => simp [he] at h
      | ok v =>
        simp only [he] at h
        have hu' : ∀ w ∈ ws, w.kind.member = m → w.key = k → w = w0 :=
          fun w hw => hu w (List.mem_cons_of_mem _ hw)
        by_cases hs : w.kind.member = m ∧ w.key = k
        · obtain rfl := hu w (List.mem_cons_self ..) hs.1 hs.2
          have hsl : slot lib o w = v := by simp [slot, he]
          have hp : put w v g m k = slot lib o w := by
            rw [hsl]
            cases v with
            | none =>
              rcases hg with hg | hg
              · simpa [put] using hg
              · simpa [put, hsl] using hg
            | some x =>
              simp only [put, hm, hk, and_self, if_true]
              by_cases hi : m = true ∧ (g m k).isSome
              · rw [if_pos hi]
                rcases hg with hg | hg
                · simp [hg] at hi
                · simpa [hsl] using hg
              · rw [if_neg hi]
          have := ih _ _ hu' h (Or.inr hp)
          rw [this, hp]
          simp
        · have hne : w0 ≠ w := fun h => hs ⟨h ▸ hm, h ▸ hk⟩
          have hp : put w v g m k = g m k := by
            cases v with
            | none => rfl
            | some x =>
              simp only [put]
              rw [if_neg]
              exact fun hh => hs ⟨hh.1.symm, hh.2.symm⟩
          have := ih _ _ hu' h (by rw [hp]; exact hg)
          rw [this, hp]
          simp [hne]
    · rw [if_neg ha] at h
      cases h

theorem writeAll_untouched (lib : Lib) (attrs : List Param) (o : Config) (m : Bool) (k : String) :
    ∀ (ws : List Write) (g g' : Group), (∀ w ∈ ws, ¬(w.kind.member = m ∧ w.key = k)) →
    writeAll lib attrs ws o g = .ok g' → g' m k = g m k := by
  intro ws
  induction ws with
  | nil =>
    intro g g' _ h
    simp only [writeAll, Except.ok.injEq] at h
    rw [h]
  | cons w ws ih =>
    intro g g' hu h
    rw [writeAll] at h
    by_cases ha : attrs.any (fun p => p.name = w.attr)
    · rw [if_pos ha] at h
      cases he : encode lib w (o w.attr) with
      | error e => simp [he] at h
      | ok v =>
        simp only [he] at h
        rw [ih _ _ (fun w hw => hu w (List.mem_cons_of_mem _ hw)) h]
        cases v with
        | none => rfl
        | some x =>
          simp only [put]
          rw [if_neg]
          exact fun hh => hu w (List.mem_cons_self ..) ⟨hh.1.symm, hh.2.symm⟩
    · rw [if_neg ha] at h
      cases h

theorem writeAll_ok (lib : Lib) (attrs : List Param) (o : Config) : ∀ (ws : List Write) (g : Group),
    (∀ w ∈ ws, attrs.any (fun p => p.name = w.attr) = true ∧ ∃ v, encode lib w (o w.attr) = .ok v) →
    ∃ g', writeAll lib attrs ws o g = .ok g' := by
  intro ws
  induction ws with
  | nil => exact fun g _ => ⟨g, rfl⟩
  | cons w ws ih =>
    intro g h
    obtain ⟨ha, v, hv⟩ := h w (List.mem_cons_self ..)
    rw [writeAll, if_pos ha]
    simp only [hv]
    exact ih _ fun w hw => h w (List.mem_cons_of_mem _ hw)

theorem readAll_ok (lib : Lib) (dflt : Config) (g : Group) : ∀ (rs : List Read)
    (a : String → Option Val), (∀ r ∈ rs, ∃ v, fetch lib dflt g r = .ok v) →
    (∀ r ∈ rs, ∀ r' ∈ rs, r.param = r'.param → r = r') →
    ∃ a', readAll lib dflt g rs a = .ok a' ∧
      (∀ r ∈ rs, ∃ v, fetch lib dflt g r = .ok v ∧ a' r.param = some v) ∧
      ∀ q, (∀ r ∈ rs, r.param ≠ q) → a' q = a q := by
  intro rs
  induction rs with
  | nil => exact fun a _ _ => ⟨a, rfl, by simp, by simp⟩
  | cons r rs ih =>
    intro a h hu
    obtain ⟨v, hv⟩ := h r (List.mem_cons_self ..)
    obtain ⟨a', h1, h2, h3⟩ := ih (fun q => if q = r.param then some v else a q)
      (fun r hr => h r (List.mem_cons_of_mem _ hr))
      (fun r hr r' hr' => hu r (List.mem_cons_of_mem _ hr) r' (List.mem_cons_of_mem _ hr'))
    refine ⟨a', by rw [readAll]; simp only [hv]; exact h1, ?_, ?_⟩
    · intro s hs
      rcases List.mem_cons.mp hs with rfl | hs
      · refine ⟨v, hv, ?_⟩
        by_cases hm : s ∈ rs
        · obtain ⟨v', hv', e⟩ := h2 s hm
          rw [hv] at hv'
          cases hv'
          exact e
        · rw [h3 s.param]
          · simp
          · intro r' hr' he
            exact hm (hu r' (List.mem_cons_of_mem _ hr') s (List.mem_cons_self ..) he ▸ hr')
      · exact h2 s hs
    · intro q hq
      rw [h3 q fun r' hr' => hq r' (List.mem_cons_of_mem _ hr')]
      simp [(hq r (List.mem_cons_self ..)).symm]

/-- The arguments of a reading that succeeded: each parameter has what one of its reads gave, the others
are not given. -/
theorem readAll_given (lib : Lib) (dflt : Config) (g : Group) : ∀ (rs : List Read)
    (a a' : String → Option Val), readAll lib dflt g rs a = .ok a' →
    (∀ q, (∃ r ∈ rs, r.param = q) →
      ∃ r ∈ rs, r.param = q ∧ ∃ v, fetch lib dflt g r = .ok v ∧ a' q = some v) ∧
    ∀ q, (∀ r ∈ rs, r.param ≠ q) → a' q = a q := by
  intro rs
  induction rs with
  | nil =>
    intro a a' h
    simp only [readAll, Except.ok.injEq] at h
    exact ⟨by simp, by simp [h]⟩
  | cons r rs ih =>
    intro a a' h
    rw [readAll] at h
    cases hv : fetch lib dflt g r with
    | error e => simp [hv] at h
    | ok v =>
      simp only [hv] at h
      obtain ⟨h1, h2⟩ := ih _ _ h
      refine ⟨?_, ?_⟩
      · intro q _
        by_cases hq : ∃ s ∈ rs, s.param = q
        · obtain ⟨s, hs, he, w, hw, ha⟩ := h1 q hq
          exact ⟨s, List.mem_cons_of_mem _ hs, he, w, hw, ha⟩
        · have hr : r.param = q := by
            rename_i hex
            obtain ⟨s, hs, he⟩ := hex
            rcases List.mem_cons.mp hs with rfl | hs
            · exact he
            · exact absurd ⟨s, hs, he⟩ hq
          refine ⟨r, List.mem_cons_self .., hr, v, hv, ?_⟩
          rw [h2 q fun s hs he => hq ⟨s, hs, he⟩]
          simp [hr]
      · intro q hq
        rw [h2 q fun s hs => hq s (List.mem_cons_of_mem _ hs)]
        simp [(hq r (List.mem_cons_self ..)).symm]

/-! ### Values of kinds -/

theorem encode_ok {lib : Lib} {w : Write} {p : Param} {v : Val} (hk : p.kind = w.kind)
    (hn : p.nullable = false ∨ w.guard = true) (hv : p.fits v) :
    ∃ x, encode lib w v = .ok x ∧
      ((v = .none ∧ w.guard = true ∧ x = Option.none) ∨
       (v ≠ .none ∧ w.kind.has v = true ∧ x = some (store w.stored v))) := by
  rcases hv with hv | ⟨hv, rfl⟩
  · have hne : v ≠ .none := by
      rintro rfl
      cases h : p.kind <;> simp [h, Kind.has] at hv
    rw [hk] at hv
    exact ⟨_, by rw [encode, if_neg hne, if_pos hv], Or.inr ⟨hne, hv, rfl⟩⟩
  · have hg : w.guard = true := by rcases hn with h | h <;> simp_all
    exact ⟨_, by rw [encode, if_pos rfl, if_pos hg], Or.inl ⟨rfl, hg, rfl⟩⟩

theorem convert_readable {lib : Lib} {k s r : Kind} {v : Val} (h : readable k s r = true)
    (hv : k.has v = true) : ∃ x, convert lib r (store s v) = .ok x := by
  cases k <;> cases v <;> simp [Kind.has] at hv <;> cases s <;> simp [readable] at h <;>
    cases r <;> simp at h <;> simp [store, convert]

theorem floor_cast_map (l : List ℤ) :
    (l.map fun z : ℤ => (z : ℚ)).map (fun x : ℚ => if 0 ≤ x then ⌊x⌋ else ⌈x⌉) = l := by
  rw [List.map_map]
  conv_rhs => rw [← List.map_id l]
  apply List.map_congr_left
  intro z _
  simp

theorem convert_faithful {lib : Lib} {k s r : Kind} {v : Val} (h : faithful k s r = true)
    (hv : k.has v = true) : convert lib r (store s v) = .ok v := by
  cases k <;> cases v <;> simp [Kind.has] at hv <;> cases s <;> simp [faithful] at h <;>
    cases r <;> simp at h <;> simp [store, convert]
  case ints.ints.flts.ints l =>
    have := floor_cast_map l
    rwa [List.map_map] at this

theorem faithful_readable {k s r : Kind} (h : faithful k s r = true) : readable k s r = true := by
  cases k <;> cases s <;> simp [faithful] at h <;> cases r <;> simp at h <;> simp [readable]

/-! ### Round trips -/

theorem mem_source {c : ClassDesc} {m : Bool} {k : String} {w : Write}
    (h : c.source m k = some w) : w ∈ c.writes ∧ w.kind.member = m ∧ w.key = k := by
  refine ⟨List.mem_of_find?_eq_some h, ?_⟩
  have := List.find?_some h
  simpa using this

theorem source_none {c : ClassDesc} {m : Bool} {k : String} (h : c.source m k = Option.none) :
    ∀ w ∈ c.writes, ¬(w.kind.member = m ∧ w.key = k) := by
  intro w hw hh
  have := List.find?_eq_none.mp h w hw
  simp [hh] at this

/-- The group `serialize` leaves. -/
theorem written {lib : Lib} {c : ClassDesc} {o : Config} (hw : c.writesOk = true) (ho : c.Fits o) :
    ∃ g, writeAll lib (c.params ++ c.extras) c.writes o (fun _ _ => Option.none) = .ok g ∧
      (∀ m k, c.source m k = Option.none → g m k = Option.none) ∧
      ∀ m k w, c.source m k = some w →
        (w.guard = true ∧ o w.attr = .none ∧ g m k = Option.none) ∨
        (o w.attr ≠ .none ∧ w.kind.has (o w.attr) = true ∧
          g m k = some (store w.stored (o w.attr))) := by
  simp only [ClassDesc.writesOk, Bool.and_eq_true, List.all_eq_true, List.any_eq_true,
    decide_eq_true_eq, Bool.or_eq_true, Bool.not_eq_true'] at hw
  obtain ⟨h1, h2⟩ := hw
  have henc : ∀ w ∈ c.writes, (c.params ++ c.extras).any (fun p => p.name = w.attr) = true ∧
      ∃ x, encode lib w (o w.attr) = .ok x ∧
        ((o w.attr = .none ∧ w.guard = true ∧ x = Option.none) ∨
         (o w.attr ≠ .none ∧ w.kind.has (o w.attr) = true ∧
           x = some (store w.stored (o w.attr)))) := by
    intro w hw
    obtain ⟨p, hp, ⟨hn, hk⟩, hg⟩ := h1 w hw
    refine ⟨by simp only [List.any_eq_true, decide_eq_true_eq]; exact ⟨p, hp, hn⟩, ?_⟩
    exact encode_ok hk hg (hn ▸ ho p hp)
  obtain ⟨g, hg⟩ := writeAll_ok lib (c.params ++ c.extras) o c.writes (fun _ _ => Option.none)
    fun w hw => ⟨(henc w hw).1, (henc w hw).2.imp fun _ h => h.1⟩
  refine ⟨g, hg, ?_, ?_⟩
  · intro m k hs
    exact writeAll_untouched lib _ o m k c.writes _ g (source_none hs) hg
  · intro m k w hs
    obtain ⟨hmem, hm, hk⟩ := mem_source hs
    have := writeAll_slot lib _ o m k w hm hk c.writes _ g (by
      intro w' hw' hm' hk'
      rcases h2 w hmem w' hw' with h | h
      · have hc : (decide (w.kind.member = w'.kind.member) && decide (w.key = w'.key)) = true := by
          rw [Bool.and_eq_true, decide_eq_true_eq, decide_eq_true_eq]
          exact ⟨hm.trans hm'.symm, hk.trans hk'.symm⟩
        rw [hc] at h
        cases h
      · exact h.symm) hg (Or.inl rfl)
    rw [if_pos hmem] at this
    obtain ⟨x, hx, hc⟩ := (henc w hmem).2
    have hsl : slot lib o w = x := by simp [slot, hx]
    rw [this, hsl]
    rcases hc with ⟨a, b, d⟩ | ⟨a, b, d⟩
    · exact Or.inl ⟨b, a, d⟩
    · exact Or.inr ⟨a, b, d⟩

/-- A class whose descriptions pass the checks is stored and restored, whatever the object: parameters
that are kept have the value they had, parameters that are lost have their fallback. -/
theorem restore_ok {lib : Lib} {dflt : Config} {c : ClassDesc} {o : Config} (hw : c.writesOk = true)
    (hr : c.readsOk = true) (ho : c.Fits o) :
    ∃ o', restore lib dflt c o = .ok (c.builds, o') ∧
      (∀ p : Param, c.kept p = true → o' p.name = o p.name) ∧
      ∀ p : Param, c.lost p = true → o' p.name = c.fallback dflt p.name := by
  obtain ⟨g, hg, hnone, hsome⟩ := written (lib := lib) hw ho
  simp only [ClassDesc.readsOk, Bool.and_eq_true, List.all_eq_true] at hr
  obtain ⟨⟨h1, h2⟩, h3⟩ := hr
  have hu : ∀ r ∈ c.reads, ∀ r' ∈ c.reads, r.param = r'.param → r = r' := by
    intro r hr r' hr' he
    have := h2 r hr r' hr'
    simpa [he] using this
  have hf : ∀ r ∈ c.reads, ∃ v, fetch lib dflt g r = .ok v := by
    intro r hr
    have hh := (h1 r hr).2
    cases r with
    | const p v => exact ⟨v, rfl⟩
    | field key kind p d =>
      cases hs : c.source kind.member key with
      | none =>
        simp only [hs, decide_eq_true_eq] at hh
        simp only [fetch, hnone _ _ hs]
        cases d <;> simp_all [missing]
      | some w =>
        simp only [hs, Bool.and_eq_true, Bool.or_eq_true, Bool.not_eq_true', decide_eq_true_eq] at hh
        rcases hsome _ _ _ hs with ⟨a, _, b⟩ | ⟨_, a, b⟩
        · simp only [fetch, b]
          have hd : d ≠ .required := by rcases hh.2 with h | h <;> simp_all
          cases d <;> simp_all [missing]
        · simp only [fetch, b]
          exact convert_readable hh.1 a
  obtain ⟨a, ha, hgive, hkeep⟩ := readAll_ok lib dflt g c.reads (fun _ => Option.none) hf hu
  have hcon : construct c dflt a = .ok fun q => (a q).getD (dflt q) := by
    have e1 : (c.reads.any fun r => !c.params.any fun p => p.name = r.param) = false := by
      rw [Bool.eq_false_iff]
      intro h
      obtain ⟨r, hr, hh⟩ := List.any_eq_true.mp h
      rw [(h1 r hr).1] at hh
      cases hh
    have e2 : (c.params.any fun p => p.required && (a p.name).isNone) = false := by
      rw [Bool.eq_false_iff]
      intro h
      obtain ⟨p, hp, hh⟩ := List.any_eq_true.mp h
      rw [Bool.and_eq_true] at hh
      have := h3 p hp
      rw [hh.1] at this
      simp only [Bool.not_true, Bool.false_or, List.any_eq_true, decide_eq_true_eq] at this
      obtain ⟨r, hr, he⟩ := this
      obtain ⟨v, _, hv⟩ := hgive r hr
      rw [← he, hv] at hh
      simp at hh
    rw [construct, e1, e2]
    rfl
  refine ⟨fun q => (a q).getD (dflt q), by rw [restore]; simp only [hg, ha, hcon], ?_, ?_⟩
  · intro p hp
    simp only [ClassDesc.kept, List.any_eq_true] at hp
    obtain ⟨r, hr, hh⟩ := hp
    cases r with
    | const q v => cases hh
    | field key kind q d =>
      simp only [Bool.and_eq_true, decide_eq_true_eq] at hh
      obtain ⟨rfl, hh⟩ := hh
      cases hs : c.source kind.member key with
      | none => simp [hs] at hh
      | some w =>
        simp only [hs, Bool.and_eq_true, decide_eq_true_eq, Bool.or_eq_true, Bool.not_eq_true'] at hh
        obtain ⟨⟨hat, hfa⟩, hgd⟩ := hh
        obtain ⟨v, hv, hav⟩ := hgive _ hr
        simp only [Read.param] at hav
        simp only [hav, Option.getD_some]
        rcases hsome _ _ _ hs with ⟨e1, e2, e3⟩ | ⟨_, e2, e3⟩
        · have hd : d = .null := by rcases hgd with h | h <;> simp_all
          simp only [fetch, e3, hd, missing, Except.ok.injEq] at hv
          rw [← hv, ← hat, e2]
        · simp only [fetch, e3, convert_faithful hfa e2, Except.ok.injEq] at hv
          rw [← hv, hat]
  · intro p hp
    simp only [ClassDesc.lost, List.all_eq_true, Bool.or_eq_true, decide_eq_true_eq] at hp
    simp only [ClassDesc.fallback]
    cases hfd : c.reads.find? fun r => r.param = p.name with
    | none =>
      have : a p.name = Option.none := hkeep p.name fun r hr he => by
        have := List.find?_eq_none.mp hfd r hr
        simp [he] at this
      simp [this]
    | some r =>
      have hr := List.mem_of_find?_eq_some hfd
      have he : r.param = p.name := by simpa using List.find?_some hfd
      obtain ⟨v, hv, hav⟩ := hgive r hr
      rw [he] at hav
      simp only [hav, Option.getD_some]
      rcases hp r hr with h | h
      · exact absurd he h
      · cases r with
        | const q x =>
          simp only [fetch, Except.ok.injEq] at hv
          exact hv.symm
        | field key kind q d =>
          have hs := Option.isNone_iff_eq_none.mp h
          simp only [Read.param] at he
          subst he
          simp only [fetch, hnone _ _ hs] at hv
          have hh := (h1 _ hr).2
          simp only [hs, decide_eq_true_eq] at hh
          cases d <;> simp_all [missing]

/-- A class whose `Deserialize` hands the constructor an argument it does not know cannot be
restored. -/
theorem restore_unknown {c : ClassDesc} (h : ∃ r ∈ c.reads, ∀ p ∈ c.params, p.name ≠ r.param)
    (lib : Lib) (dflt o : Config) : ∃ e, restore lib dflt c o = .error e := by
  rw [restore]
  cases h1 : writeAll lib (c.params ++ c.extras) c.writes o (fun _ _ => Option.none) with
  | error e => exact ⟨e, rfl⟩
  | ok g =>
    cases h2 : readAll lib dflt g c.reads (fun _ => Option.none) with
    | error e => exact ⟨e, by simp only [h2]⟩
    | ok a =>
      obtain ⟨r, hr, hp⟩ := h
      have e1 : (c.reads.any fun r => !c.params.any fun p => p.name = r.param) = true := by
        refine List.any_eq_true.mpr ⟨r, hr, ?_⟩
        rw [Bool.not_eq_true', Bool.eq_false_iff]
        intro hh
        obtain ⟨p, hpm, he⟩ := List.any_eq_true.mp hh
        exact hp p hpm (by simpa using he)
      exact ⟨.type, by simp only [h2, construct, e1, if_true]⟩

/-- A class whose `serialize` looks at an attribute the object never has cannot be stored. -/
theorem restore_unset {c : ClassDesc} (h : ∃ w ∈ c.writes, ∀ p ∈ c.params ++ c.extras, p.name ≠ w.attr)
    (lib : Lib) (dflt o : Config) : ∃ e, restore lib dflt c o = .error e := by
  have key : ∀ (ws : List Write) (g : Group), (∃ w ∈ ws, ∀ p ∈ c.params ++ c.extras, p.name ≠ w.attr) →
      ∃ e, writeAll lib (c.params ++ c.extras) ws o g = .error e := by
    intro ws
    induction ws with
    | nil => rintro g ⟨w, hw, _⟩; cases hw
    | cons w ws ih =>
      rintro g ⟨w0, hw0, hp⟩
      rw [writeAll]
      by_cases ha : (c.params ++ c.extras).any (fun p => p.name = w.attr)
      · rw [if_pos ha]
        cases he : encode lib w (o w.attr) with
        | error e => exact ⟨e, rfl⟩
        | ok v =>
          rcases List.mem_cons.mp hw0 with rfl | hw0
          · obtain ⟨p, hpm, hpe⟩ := List.any_eq_true.mp ha
            exact absurd (by simpa using hpe) (hp p hpm)
          · exact ih _ ⟨w0, hw0, hp⟩
      · rw [if_neg ha]
        exact ⟨_, rfl⟩
  obtain ⟨e, he⟩ := key c.writes (fun _ _ => Option.none) h
  exact ⟨e, by rw [restore]; simp only [he]⟩

/-- A class whose `Deserialize` does not give a parameter the constructor requires cannot be
restored. -/
theorem restore_missing {c : ClassDesc}
    (h : ∃ p ∈ c.params, p.required = true ∧ ∀ r ∈ c.reads, r.param ≠ p.name)
    (lib : Lib) (dflt o : Config) : ∃ e, restore lib dflt c o = .error e := by
  rw [restore]
  cases h1 : writeAll lib (c.params ++ c.extras) c.writes o (fun _ _ => Option.none) with
  | error e => exact ⟨e, rfl⟩
  | ok g =>
    cases h2 : readAll lib dflt g c.reads (fun _ => Option.none) with
    | error e => exact ⟨e, by simp only [h2]⟩
    | ok a =>
      obtain ⟨p, hp, hq, hr⟩ := h
      have ha : a p.name = Option.none := (readAll_given lib dflt g c.reads _ a h2).2 p.name hr
      have e1 : (c.params.any fun p => p.required && (a p.name).isNone) = true :=
        List.any_eq_true.mpr ⟨p, hp, by simp [hq, ha]⟩
      refine ⟨.type, ?_⟩
      simp only [h2, construct, e1, if_true]
      split <;> rename_i hh <;> split at hh <;> simp_all

/-- Reading a field as a kind gives a value of that kind. -/
theorem convert_kind {lib : Lib} {k : Kind} {s v : Val} (h : convert lib k s = .ok v) :
    k.has v = true := by
  cases k <;> cases s <;> simp [convert] at h <;> try (subst h; simp [Kind.has])
  rename_i l
  cases hn : lib.narrow l with
  | error e => simp [hn, Except.map] at h
  | ok x =>
    simp only [hn, Except.map, Except.ok.injEq] at h
    subst h
    rfl

/-- A parameter whose field is read as one kind comes back as a value of that kind, as `None` if the
field may be missing, whatever was stored. -/
theorem restore_kind {lib : Lib} {dflt : Config} {c : ClassDesc} {o o' : Config} {b : String}
    {key p : String} {k : Kind} {d : Dflt} (hr : Read.field key k p d ∈ c.reads)
    (hu : ∀ r ∈ c.reads, r.param = p → r = .field key k p d)
    (hd : d = .required ∨ d = .null) (h : restore lib dflt c o = .ok (b, o')) :
    k.has (o' p) = true ∨ (d = .null ∧ o' p = .none) := by
  rw [restore] at h
  cases h1 : writeAll lib (c.params ++ c.extras) c.writes o (fun _ _ => Option.none) with
  | error e => simp [h1] at h
  | ok g =>
    simp only [h1] at h
    cases h2 : readAll lib dflt g c.reads (fun _ => Option.none) with
    | error e => simp [h2] at h
    | ok a =>
      simp only [h2] at h
      cases h3 : construct c dflt a with
      | error e => simp [h3] at h
      | ok x =>
        simp only [h3, Except.ok.injEq, Prod.mk.injEq] at h
        obtain ⟨_, rfl⟩ := h
        obtain ⟨r, hrm, hre, v, hv, hav⟩ :=
          (readAll_given lib dflt g c.reads _ a h2).1 p ⟨_, hr, rfl⟩
        obtain rfl := hu r hrm hre
        have hx : x p = v := by
          rw [construct] at h3
          split at h3
          · cases h3
          · split at h3
            · cases h3
            · simp only [Except.ok.injEq] at h3
              rw [← h3]
              simp [hav]
        rw [hx]
        simp only [fetch] at hv
        split at hv
        · rcases hd with rfl | rfl
          · simp only [missing] at hv
            split at hv
            · rename_i ht
              subst ht
              simp only [Except.ok.injEq] at hv
              subst hv
              exact Or.inl rfl
            · cases hv
          · simp only [missing, Except.ok.injEq] at hv
            exact Or.inr ⟨rfl, hv.symm⟩
        · exact Or.inl (convert_kind hv)

/-! ### Objects that do not use `None` -/

/-- The parameter, which is now not to be `None`. -/
def Param.firm (q : String) (p : Param) : Param := if p.name = q then { p with nullable := false } else p

@[simp] theorem Param.firm_name (q : String) (p : Param) : (p.firm q).name = p.name := by
  rw [Param.firm]; split <;> rfl

@[simp] theorem Param.firm_required (q : String) (p : Param) : (p.firm q).required = p.required := by
  rw [Param.firm]; split <;> rfl

/-- The class, for objects whose parameter `q` is not `None`. -/
def ClassDesc.firm (q : String) (c : ClassDesc) : ClassDesc :=
  { c with params := c.params.map (Param.firm q) }

theorem restore_firm (lib : Lib) (dflt : Config) (q : String) (c : ClassDesc) (o : Config) :
    restore lib dflt (c.firm q) o = restore lib dflt c o := by
  have hw : ∀ (ws : List Write) (g : Group),
      writeAll lib ((c.firm q).params ++ c.extras) ws o g = writeAll lib (c.params ++ c.extras) ws o g := by
    intro ws
    induction ws with
    | nil => intro g; rfl
    | cons w ws ih =>
      intro g
      rw [writeAll, writeAll]
      simp only [ClassDesc.firm, List.any_append, List.any_map, Function.comp_def, Param.firm_name]
      simp only [ClassDesc.firm] at ih
      split
      · cases encode lib w (o w.attr) with
        | error e => rfl
        | ok v => exact ih _
      · rfl
  have hc : ∀ a, construct (c.firm q) dflt a = construct c dflt a := by
    intro a
    simp only [construct, ClassDesc.firm, List.any_map, Function.comp_def, Param.firm_name,
      Param.firm_required]
  have hw' := hw c.writes (fun _ _ => Option.none)
  rw [restore, restore]
  simp only [hc]
  rw [← hw']
  rfl

/-! ### Objects that fit -/

/-- Two values of a kind. -/
def Kind.two : Kind → Val × Val
  | .flt => (.flt (some 0), .flt (some 1))
  | .int => (.int 0, .int 1)
  | .flag => (.flag false, .flag true)
  | .txt => (.txt "a", .txt "b")
  | .cpx => (.cpx 0 0, .cpx 0 1)
  | .ints => (.ints [], .ints [1])
  | .flts => (.flts [], .flts [1])
  | .cpxs => (.cpxs [], .cpxs [(0, 1)])
  | .obj => (.obj 0, .obj 1)
  | .seq => (.seq [0], .seq [1])
  | .range => (.range 0 1, .range 0 2)

theorem Kind.two_spec (k : Kind) :
    k.has k.two.1 = true ∧ k.has k.two.2 = true ∧ k.two.1 ≠ k.two.2 := by
  cases k <;> simp [Kind.two, Kind.has]

/-- An object of the class. -/
def ClassDesc.sample (c : ClassDesc) : Config := fun q =>
  match (c.params ++ c.extras).find? fun p => p.name = q with
  | Option.none => .none
  | some p => p.kind.two.2

/-- The names of the attributes are different. -/
def ClassDesc.distinct (c : ClassDesc) : Bool :=
  (c.params ++ c.extras).all fun p => (c.params ++ c.extras).all fun p' => p.name ≠ p'.name || p = p'

theorem sample_update_fits {c : ClassDesc} (h : c.distinct = true) {p : Param}
    (hp : p ∈ c.params ++ c.extras) {v : Val} (hv : p.fits v) :
    c.Fits fun q => if q = p.name then v else c.sample q := by
  simp only [ClassDesc.distinct, List.all_eq_true, Bool.or_eq_true, decide_eq_true_eq] at h
  intro p' hp'
  by_cases he : p'.name = p.name
  · rcases h p' hp' p hp with h | rfl
    · exact absurd he h
    · simpa using hv
  · simp only [he, if_false]
    left
    have hs : (c.params ++ c.extras).find? (fun x => x.name = p'.name) = some p' := by
      cases hf : (c.params ++ c.extras).find? fun x => x.name = p'.name with
      | none =>
        have := List.find?_eq_none.mp hf p' hp'
        simp at this
      | some x =>
        have hx := List.mem_of_find?_eq_some hf
        have hxe : x.name = p'.name := by simpa using List.find?_some hf
        rcases h x hx p' hp' with h | h
        · exact absurd hxe h
        · rw [h]
    simp only [ClassDesc.sample, hs]
    exact (Kind.two_spec _).2.1

/-- A parameter that is lost differs after restoring some object. -/
theorem lost_differs {lib : Lib} {dflt : Config} {c : ClassDesc} (hw : c.writesOk = true)
    (hr : c.readsOk = true) (hd : c.distinct = true) {p : Param} (hp : p ∈ c.params)
    (hl : c.lost p = true) :
    ∃ o, c.Fits o ∧ ∃ o', restore lib dflt c o = .ok (c.builds, o') ∧ o' p.name ≠ o p.name := by
  obtain ⟨t1, t2, t3⟩ := p.kind.two_spec
  have hex : ∃ v, p.fits v ∧ c.fallback dflt p.name ≠ v := by
    by_cases h : c.fallback dflt p.name = p.kind.two.1
    · exact ⟨p.kind.two.2, Or.inl t2, by rw [h]; exact t3⟩
    · exact ⟨p.kind.two.1, Or.inl t1, h⟩
  obtain ⟨v, hv, hne⟩ := hex
  have hfit := sample_update_fits hd (List.mem_append_left _ hp) hv
  obtain ⟨o', h1, _, h3⟩ := restore_ok (lib := lib) (dflt := dflt) hw hr hfit
  exact ⟨_, hfit, o', h1, by rw [h3 p hl]; simpa using hne⟩

end Verif.Schema
