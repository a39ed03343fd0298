import Verif.Np
import Mathlib.Data.List.Basic
import Mathlib.Data.List.Infix
import Mathlib.Data.List.Forall2
import Mathlib.Tactic.Common

/-!
# C32: the HDF serialization processes

`core/factory.py`.  An object graph is a heap of objects with a tag and named fields; `serialize`
writes the fields in their order, `Deserialize` reads them in the order of a schema.  The file is a
map from paths to links (groups, data sets, soft links) and attributes.

Simplifications: attribute values are stored and returned unchanged (`float`, `complex`, `int` and
`str` fields are one kind), fields are read with the default `None`, expected types are not checked,
the campaign argument, `append`, `root` and `cache` have their default values.
-/

namespace Verif.Io

/-- A link name: the name of a field or the four-digit index of a sequence element. -/
inductive Seg
  | field (s : String)
  | idx (i : Nat)
  deriving DecidableEq

/-- Path of a link, innermost name first. -/
abbrev Path := List Seg

/-- What a link leads to. -/
inductive Link (A : Type)
  | group
  | data (v : A)
  | soft (p : Path)

/-- Content of the file.  `kids` counts the links in a group, `len(group)`. -/
structure File (V A T : Type) where
  links : Path → Option (Link A)
  attr : Path → Option V
  tag : Path → Option T
  kids : Path → Nat

/-- Fields of objects.  Arrays are given by address and content: the content belongs to the moment of
serialization, so one address may appear with several contents. -/
inductive Field (V A : Type)
  | absent
  | scalar (v : V)
  | arr (addr : Nat) (v : A)
  | obj (r : Nat)
  | seq (rs : List Nat)

/-- How `Deserialize` reads a field. -/
inductive Kind
  | scalar
  | arr
  | obj
  | seq

/-- A serializable object. -/
structure Obj (V A T : Type) where
  tag : T
  fields : List (String × Field V A)

variable {V A T : Type}

/-- Point update. -/
def upd {β : Type} {γ : Type} [DecidableEq β] (f : β → γ) (i : β) (v : γ) : β → γ :=
  fun j => if j = i then v else f j

/-- Creation of a link in the group `p`. -/
def addLink (f : File V A T) (x : Seg) (p : Path) (l : Link A) : File V A T :=
  { f with
    links := upd f.links (x :: p) (some l)
    kids := upd f.kids p (f.kids p + 1) }

/-- `HDFSerializationProcess`: file, `__objects` and `__arrays`. -/
structure Writer (V A T : Type) where
  file : File V A T
  objs : Nat → Option Path
  arrs : Nat → Option Path

/-- `serialize_array`, `core/factory.py` 884-902. -/
def writeArray (p : Path) (x : Seg) (a : Nat) (v : A) (w : Writer V A T) : Writer V A T :=
  if (w.file.links (x :: p)).isSome then w
  else match w.arrs a with
    | some q => { w with file := addLink w.file x p (.soft q) }
    | none =>
      { w with
        file := addLink w.file x p (.data v)
        arrs := upd w.arrs a (some (x :: p)) }

/-- Loop of `serialize_object_sequence`, `core/factory.py` 986-990. -/
def writeSeq (wo : Seg → Path → Nat → Writer V A T → Except PyErr (Writer V A T)) (g : Path) :
    Nat → List Nat → Writer V A T → Except PyErr (Writer V A T)
  | _, [], w => .ok w
  | i, r :: rs, w => do
      let w1 ← wo (.idx i) g r w
      writeSeq wo g (i + 1) rs w1

/-- One call of a `serialize_…` method; `wo` is `serialize_object`.  Scalars: `core/factory.py`
904-918.  Sequences: 961-990, without `append` an existing group is used again. -/
def writeField (wo : Seg → Path → Nat → Writer V A T → Except PyErr (Writer V A T)) (p : Path)
    (w : Writer V A T) (nf : String × Field V A) : Except PyErr (Writer V A T) :=
  match nf.2 with
  | .absent => .ok w
  | .scalar v => .ok { w with file := { w.file with attr := upd w.file.attr (.field nf.1 :: p) (some v) } }
  | .arr a v => .ok (writeArray p (.field nf.1) a v w)
  | .obj r => wo (.field nf.1) p r w
  | .seq rs =>
    if (w.file.links (.field nf.1 :: p)).isSome then writeSeq wo (.field nf.1 :: p) 0 rs w
    else writeSeq wo (.field nf.1 :: p) 0 rs { w with file := addLink w.file (.field nf.1) p .group }

/-- `serialize_object` and `_serialize_object`, `core/factory.py` 414-436, 921-958; `reg` are the
registered tags. -/
def writeObj (H : Nat → Obj V A T) (reg : T → Bool) :
    Nat → Seg → Path → Nat → Writer V A T → Except PyErr (Writer V A T)
  | 0, _, _, _, _ => .error .recursion
  | R + 1, x, p, r, w =>
    if ¬ reg (H r).tag then .error .runtime
    else if (w.file.links (x :: p)).isSome then .ok w
    else match w.objs r with
      | some q => .ok { w with file := addLink w.file x p (.soft q) }
      | none =>
        match (H r).fields.foldlM (writeField (writeObj H reg R) (x :: p))
            { w with
              file := addLink w.file x p .group
              objs := upd w.objs r (some (x :: p)) } with
        | .error e => .error e
        | .ok w2 =>
          .ok { w2 with file := { w2.file with tag := upd w2.file.tag (x :: p) (some (H r).tag) } }

/-- A new file with the group `arrays`, `core/factory.py` 862-881. -/
def newWriter : Writer V A T where
  file := addLink ⟨fun _ => none, fun _ => none, fun _ => none, fun _ => 0⟩ (.field "arrays") [] .group
  objs := fun _ => none
  arrs := fun _ => none

/-- `Factory.to_HDF`, `core/factory.py` 223-246: the root object's fields are written to the root
group, which has no tag and is not in the object cache. -/
def writeRoot (H : Nat → Obj V A T) (reg : T → Bool) (R : Nat) (root : Nat) :
    Except PyErr (Writer V A T) :=
  (H root).fields.foldlM (writeField (writeObj H reg R) []) newWriter

/-- `HDFDeserializationProcess`: objects and arrays created so far, `__objects` and `__arrays`. -/
structure Reader (V A T : Type) where
  objs : List (Obj V A T)
  arrs : List A
  cache : Path → Option Nat
  acache : Path → Option Nat

/-- Creation of an array, `core/factory.py` 1090-1092. -/
def loadArray (q : Path) (v : A) (s : Reader V A T) : Reader V A T × Field V A :=
  ({ s with
     arrs := s.arrs ++ [v]
     acache := upd s.acache q (some s.arrs.length) }, .arr s.arrs.length v)

/-- `deserialize_array`, `core/factory.py` 1066-1092. -/
def readArray (F : File V A T) (q : Path) (s : Reader V A T) :
    Except PyErr (Reader V A T × Field V A) :=
  match F.links q with
  | none => .ok (s, .absent)
  | some (.data v) => .ok (loadArray q v s)
  | some .group => .error .type
  | some (.soft q') =>
    match s.acache q' with
    | some n => match s.arrs[n]? with
      | some v => .ok (s, .arr n v)
      | none => .error .key
    | none => match F.links q' with
      | some (.data v) => .ok (loadArray q' v s)
      | _ => .error .key

/-- Loop of `deserialize_object_sequence`, `core/factory.py` 1209-1215. -/
def readSeq (ro : Seg → Path → Reader V A T → Except PyErr (Reader V A T × Nat)) (g : Path) :
    Nat → Nat → Reader V A T → Except PyErr (Reader V A T × List Nat)
  | _, 0, s => .ok (s, [])
  | i, n + 1, s => do
      let x ← ro (.idx i) g s
      let y ← readSeq ro g (i + 1) n x.1
      .ok (y.1, x.2 :: y.2)

/-- One call of a `deserialize_…` method; `ro` is `deserialize_object`. -/
def readField (F : File V A T) (ro : Seg → Path → Reader V A T → Except PyErr (Reader V A T × Nat))
    (p : Path) (s : Reader V A T) (nk : String × Kind) :
    Except PyErr (Reader V A T × (String × Field V A)) :=
  let q := Seg.field nk.1 :: p
  match nk.2 with
  | .scalar => match F.attr q with
    | none => .ok (s, nk.1, .absent)
    | some v => .ok (s, nk.1, .scalar v)
  | .arr => match readArray F q s with
    | .error e => .error e
    | .ok (s', f) => .ok (s', nk.1, f)
  | .obj => match F.links q with
    | none => .ok (s, nk.1, .absent)
    | some _ => match ro (.field nk.1) p s with
      | .error e => .error e
      | .ok (s', n) => .ok (s', nk.1, .obj n)
  | .seq => match F.links q with
    | none => .ok (s, nk.1, .seq [])
    | some _ => match readSeq ro q 0 (F.kids q) s with
      | .error e => .error e
      | .ok (s', ns) => .ok (s', nk.1, .seq ns)

/-- The body of a `Deserialize` method. -/
def readFields (F : File V A T) (ro : Seg → Path → Reader V A T → Except PyErr (Reader V A T × Nat))
    (p : Path) : List (String × Kind) → Reader V A T →
    Except PyErr (Reader V A T × List (String × Field V A))
  | [], s => .ok (s, [])
  | nk :: nks, s =>
    match readField F ro p s nk with
    | .error e => .error e
    | .ok (s1, f) => match readFields F ro p nks s1 with
      | .error e => .error e
      | .ok (s2, fs) => .ok (s2, f :: fs)

/-- Creation of an object from the group `g`, `core/factory.py` 1158-1190. -/
def readGroup (F : File V A T) (schema : T → List (String × Kind)) (reg : T → Bool)
    (ro : Seg → Path → Reader V A T → Except PyErr (Reader V A T × Nat)) (g : Path)
    (s : Reader V A T) : Except PyErr (Reader V A T × Nat) :=
  match F.tag g with
  | none => .error .runtime
  | some t =>
    if ¬ reg t then .error .runtime
    else match readFields F ro g (schema t) s with
      | .error e => .error e
      | .ok (s', fs) =>
        .ok ({ s' with
               objs := s'.objs ++ [⟨t, fs⟩]
               cache := upd s'.cache g (some s'.objs.length) }, s'.objs.length)

/-- `_deserialize_object`, `core/factory.py` 1137-1190: the cache is consulted for soft links only. -/
def readObj (F : File V A T) (schema : T → List (String × Kind)) (reg : T → Bool) :
    Nat → Seg → Path → Reader V A T → Except PyErr (Reader V A T × Nat)
  | 0, _, _, _ => .error .recursion
  | R + 1, x, p, s =>
    match F.links (x :: p) with
    | none => .error .runtime
    | some (.soft q) => match s.cache q with
      | some n => .ok (s, n)
      | none => readGroup F schema reg (readObj F schema reg R) q s
    | some _ => readGroup F schema reg (readObj F schema reg R) (x :: p) s

/-- A fresh deserialization process. -/
def newReader : Reader V A T := ⟨[], [], fun _ => none, fun _ => none⟩

/-- `Factory.from_HDF`, `core/factory.py` 248-275; `t` is the tag of the given type. -/
def readRoot (F : File V A T) (schema : T → List (String × Kind)) (reg : T → Bool) (R : Nat) (t : T) :
    Except PyErr (Reader V A T × List (String × Field V A)) :=
  readFields F (readObj F schema reg R) [] (schema t) newReader

/-! ### Specification -/

/-- A field is of the kind the schema expects, or not set. -/
def Fits : Kind → Field V A → Prop
  | .scalar, .scalar _ => True
  | .scalar, .absent => True
  | .arr, .arr _ _ => True
  | .arr, .absent => True
  | .obj, .obj _ => True
  | .obj, .absent => True
  | .seq, .seq _ => True
  | _, _ => False

/-- A field refers to an object. -/
def Refers (f : Field V A) (r : Nat) : Prop :=
  match f with
  | .obj r' => r = r'
  | .seq rs => r ∈ rs
  | _ => False

/-- What the heap must satisfy: fields have distinct names, the schema of a class reads them in the
order of writing, references do not form cycles, an address stands for one array. -/
structure Sound (H : Nat → Obj V A T) (schema : T → List (String × Kind)) (rank : Nat → Nat)
    (val : Nat → A) : Prop where
  names : ∀ r, ((H r).fields.map (·.1)).Nodup
  order : ∀ r, List.Forall₂ (fun (f : String × Field V A) (k : String × Kind) =>
    f.1 = k.1 ∧ Fits k.2 f.2) (H r).fields (schema (H r).tag)
  acyclic : ∀ r, ∀ f ∈ (H r).fields, ∀ r', Refers f.2 r' → rank r' < rank r
  arrays : ∀ r, ∀ f ∈ (H r).fields, ∀ a v, f.2 = .arr a v → v = val a

/-- A field read back, for a renaming `φ` of objects and `ψ` of arrays: same name, same value, and
references renamed. -/
def FieldCopy (φ ψ : Nat → Option Nat) (f g : String × Field V A) : Prop :=
  f.1 = g.1 ∧ match f.2, g.2 with
    | .absent, .absent => True
    | .scalar v, .scalar v' => v' = v
    | .arr a v, .arr n v' => ψ a = some n ∧ v' = v
    | .obj r, .obj n => φ r = some n
    | .seq rs, .seq ns => List.Forall₂ (fun r n => φ r = some n) rs ns
    | _, _ => False

/-- Distinct objects keep distinct names. -/
def Inj (φ : Nat → Option Nat) : Prop := ∀ a b n, φ a = some n → φ b = some n → a = b

/-! ### Proof -/

/-- Nothing is stored at or below a path. -/
def Fresh (w : Writer V A T) (g : Path) : Prop :=
  ∀ q, g <:+ q → w.file.links q = none ∧ w.file.attr q = none ∧ w.file.kids q = 0

/-- Only the part at and below `g` has changed, apart from the number of links in the parent. -/
structure Frame (w w' : Writer V A T) (g : Path) : Prop where
  links : ∀ q, ¬ g <:+ q → w'.file.links q = w.file.links q
  attr : ∀ q, ¬ g <:+ q → w'.file.attr q = w.file.attr q
  tag : ∀ q, ¬ g <:+ q → w'.file.tag q = w.file.tag q
  kids : ∀ q, ¬ g <:+ q → q ≠ g.tail → w'.file.kids q = w.file.kids q

/-- The final file agrees with the current one at and below `g`. -/
def Agree (F : File V A T) (w : Writer V A T) (g : Path) : Prop :=
  ∀ q, g <:+ q → F.links q = w.file.links q ∧ F.attr q = w.file.attr q ∧ F.tag q = w.file.tag q ∧
    F.kids q = w.file.kids q

theorem suffix_cons_ne {x y : Seg} {p q : Path} (h : x ≠ y) (hq : (x :: p) <:+ q) : ¬ (y :: p) <:+ q := by
  intro hy
  obtain ⟨a, ha⟩ := hq
  obtain ⟨b, hb⟩ := hy
  have hl : a.length = b.length := by
    have := congrArg List.length (ha.trans hb.symm)
    simp at this; omega
  have := (List.append_inj (ha.trans hb.symm) hl).2
  simp only [List.cons.injEq] at this
  exact h this.1

theorem not_suffix_self (x : Seg) (p : Path) : ¬ (x :: p) <:+ p := fun h => by
  have := h.length_le; simp at this

theorem Frame.refl (w : Writer V A T) (g : Path) : Frame w w g :=
  ⟨fun _ _ => rfl, fun _ _ => rfl, fun _ _ => rfl, fun _ _ _ => rfl⟩

theorem Frame.trans {w w1 w2 : Writer V A T} {g : Path} (h1 : Frame w w1 g) (h2 : Frame w1 w2 g) :
    Frame w w2 g :=
  ⟨fun q h => (h2.links q h).trans (h1.links q h), fun q h => (h2.attr q h).trans (h1.attr q h),
    fun q h => (h2.tag q h).trans (h1.tag q h), fun q h h' => (h2.kids q h h').trans (h1.kids q h h')⟩

/-- Changes below a child are changes below the parent. -/
theorem Frame.up {w w' : Writer V A T} {x : Seg} {p : Path} (h : Frame w w' (x :: p)) : Frame w w' p := by
  have hs : ∀ q, ¬ p <:+ q → ¬ (x :: p) <:+ q := fun q hq hc =>
    hq ((List.suffix_cons x p).trans hc)
  refine ⟨fun q hq => h.links q (hs q hq), fun q hq => h.attr q (hs q hq),
    fun q hq => h.tag q (hs q hq), fun q hq _ => h.kids q (hs q hq) ?_⟩
  intro e; apply hq; rw [e]; exact List.suffix_rfl

theorem addLink_frame (w : Writer V A T) (x : Seg) (p : Path) (l : Link A) (o : Nat → Option Path)
    (a : Nat → Option Path) : Frame w ⟨addLink w.file x p l, o, a⟩ (x :: p) := by
  refine ⟨fun q hq => ?_, fun _ _ => rfl, fun _ _ => rfl, fun q _ hq => ?_⟩
  · simp only [addLink, upd]
    rw [if_neg (fun e => hq (by rw [e]))]
  · simp only [addLink, upd]
    rw [if_neg (by simpa using hq)]

/-- `wo` changes only what is below its path. -/
def Framed (wo : Seg → Path → Nat → Writer V A T → Except PyErr (Writer V A T)) : Prop :=
  ∀ x p r w w', wo x p r w = .ok w' → Frame w w' (x :: p)

theorem writeSeq_frame {wo : Seg → Path → Nat → Writer V A T → Except PyErr (Writer V A T)}
    (hwo : Framed wo) (g : Path) (i : Nat) (rs : List Nat) (w w' : Writer V A T)
    (h : writeSeq wo g i rs w = .ok w') : Frame w w' g := by
  induction rs generalizing i w with
  | nil => cases h; exact Frame.refl _ _
  | cons r rs ih =>
    unfold writeSeq at h
    cases h1 : wo (.idx i) g r w with
    | error e => rw [h1] at h; cases h
    | ok w1 =>
      rw [h1] at h
      exact (hwo _ _ _ _ _ h1).up.trans (ih _ _ h)

theorem writeField_frame {wo : Seg → Path → Nat → Writer V A T → Except PyErr (Writer V A T)}
    (hwo : Framed wo) (p : Path) (nf : String × Field V A) (w w' : Writer V A T)
    (h : writeField wo p w nf = .ok w') : Frame w w' (.field nf.1 :: p) := by
  obtain ⟨name, f⟩ := nf
  cases f with
  | absent => cases h; exact Frame.refl _ _
  | scalar v =>
    cases h
    refine ⟨fun _ _ => rfl, fun q hq => ?_, fun _ _ => rfl, fun _ _ _ => rfl⟩
    simp only [upd]
    rw [if_neg (fun e => hq (by rw [e]))]
  | arr a v =>
    cases h
    unfold writeArray
    split
    · exact Frame.refl _ _
    · split
      · exact addLink_frame _ _ _ _ _ _
      · exact addLink_frame _ _ _ _ _ _
  | obj r => exact hwo _ _ _ _ _ h
  | seq rs =>
    simp only [writeField] at h
    split at h
    · exact writeSeq_frame hwo _ _ _ _ _ h
    · exact (addLink_frame _ _ _ _ _ _).trans (writeSeq_frame hwo _ _ _ _ _ h)

theorem foldFields_frame {wo : Seg → Path → Nat → Writer V A T → Except PyErr (Writer V A T)}
    (hwo : Framed wo) (p : Path) (fs : List (String × Field V A)) (w w' : Writer V A T)
    (h : fs.foldlM (writeField wo p) w = .ok w') : Frame w w' p := by
  induction fs generalizing w with
  | nil => cases h; exact Frame.refl _ _
  | cons f fs ih =>
    rw [List.foldlM_cons] at h
    cases h1 : writeField wo p w f with
    | error e => rw [h1] at h; cases h
    | ok w1 =>
      rw [h1] at h
      exact (writeField_frame hwo p f w w1 h1).up.trans (ih _ h)

theorem writeObj_frame (H : Nat → Obj V A T) (reg : T → Bool) (R : Nat) : Framed (writeObj H reg R) := by
  induction R with
  | zero => intro x p r w w' h; cases h
  | succ R ih =>
    intro x p r w w' h
    unfold writeObj at h
    split at h
    · cases h
    split at h
    · cases h; exact Frame.refl _ _
    split at h
    · cases h; exact addLink_frame _ _ _ _ _ _
    · split at h
      · cases h
      · rename_i w2 h2
        cases h
        refine (addLink_frame w x p .group _ w.arrs).trans ((foldFields_frame ih _ _ _ _ h2).trans ?_)
        refine ⟨fun _ _ => rfl, fun _ _ => rfl, fun q hq => ?_, fun _ _ _ => rfl⟩
        simp only [upd]
        rw [if_neg (fun e => hq (by rw [e]))]

/-- A fresh object adds one link to its group. -/
theorem writeObj_kids (H : Nat → Obj V A T) (reg : T → Bool) (R : Nat) (x : Seg) (p : Path) (r : Nat)
    (w w' : Writer V A T) (h : writeObj H reg R x p r w = .ok w') (hf : Fresh w (x :: p)) :
    w'.file.kids p = w.file.kids p + 1 := by
  cases R with
  | zero => cases h
  | succ R =>
    unfold writeObj at h
    split at h
    · cases h
    rw [if_neg (by rw [(hf _ List.suffix_rfl).1]; simp)] at h
    split at h
    · cases h; simp [addLink, upd]
    · split at h
      · cases h
      · rename_i w2 h2
        cases h
        have := (foldFields_frame (writeObj_frame H reg R) _ _ _ _ h2)
        -- `p` is not below `x :: p`; it is the parent of `x :: p`, so look at the fields one by one
        have key : ∀ (fs : List (String × Field V A)) (u u' : Writer V A T),
            fs.foldlM (writeField (writeObj H reg R) (x :: p)) u = .ok u' →
            u'.file.kids p = u.file.kids p := by
          intro fs
          induction fs with
          | nil => intro u u' h; cases h; rfl
          | cons f fs ih =>
            intro u u' h
            rw [List.foldlM_cons] at h
            cases h1 : writeField (writeObj H reg R) (x :: p) u f with
            | error e => rw [h1] at h; cases h
            | ok u1 =>
              rw [h1] at h
              rw [ih _ _ h]
              refine (writeField_frame (writeObj_frame H reg R) _ f u u1 h1).kids p ?_ ?_
              · intro hc; have := hc.length_le; simp at this; omega
              · intro e
                have := congrArg List.length e; simp at this
        rw [key _ _ _ h2]
        simp [addLink, upd]

/-- Correspondence of the writer at some moment with a reader that has read what is written:
objects of rank below `k` in the writer's cache are in the reader's cache. -/
structure Corr (H : Nat → Obj V A T) (rank : Nat → Nat) (val : Nat → A) (k : Nat) (w : Writer V A T)
    (s : Reader V A T) (φ ψ : Nat → Option Nat) : Prop where
  objs : ∀ r q, w.objs r = some q → rank r < k → ∃ n, φ r = some n ∧ s.cache q = some n
  copy : ∀ r n, φ r = some n → ∃ o, s.objs[n]? = some o ∧ o.tag = (H r).tag ∧
    List.Forall₂ (FieldCopy φ ψ) (H r).fields o.fields
  inj : Inj φ
  unseen : ∀ r, w.objs r = none → φ r = none
  stored : ∀ r q, w.objs r = some q → w.file.links q ≠ none
  arrs : ∀ a q, w.arrs a = some q → ∃ n, ψ a = some n ∧ s.acache q = some n
  acopy : ∀ a n, ψ a = some n → s.arrs[n]? = some (val a)
  ainj : Inj ψ
  aunseen : ∀ a, w.arrs a = none → ψ a = none
  astored : ∀ a q, w.arrs a = some q → w.file.links q ≠ none

/-- Progress from one moment to a later one. -/
structure Step (H : Nat → Obj V A T) (rank : Nat → Nat) (val : Nat → A) (k : Nat) (w w' : Writer V A T)
    (s s' : Reader V A T) (φ φ' ψ ψ' : Nat → Option Nat) : Prop where
  corr : Corr H rank val k w' s' φ' ψ'
  mono : ∀ r n, φ r = some n → φ' r = some n
  amono : ∀ a n, ψ a = some n → ψ' a = some n
  keep : ∀ r, k ≤ rank r → φ' r = φ r
  fresh : ∀ r q, w'.objs r = some q → w.objs r = some q ∨ (rank r < k ∧ w.file.links q = none)
  objs : ∀ r q, w.objs r = some q → w'.objs r = some q
  links : ∀ q, w.file.links q ≠ none → w'.file.links q ≠ none
  cache : ∀ q n, w.file.links q ≠ none → s.cache q = some n → s'.cache q = some n

theorem FieldCopy.mono {φ φ' ψ ψ' : Nat → Option Nat} (h1 : ∀ r n, φ r = some n → φ' r = some n)
    (h2 : ∀ r n, ψ r = some n → ψ' r = some n) {f g : String × Field V A} (h : FieldCopy φ ψ f g) :
    FieldCopy φ' ψ' f g := by
  refine ⟨h.1, ?_⟩
  have := h.2
  revert this
  cases f.2 <;> cases g.2 <;> simp only [imp_self]
  · rintro ⟨a, b⟩; exact ⟨h2 _ _ a, b⟩
  · exact fun a => h1 _ _ a
  · exact fun a => a.imp (fun x y => h1 x y)

theorem Step.trans {H : Nat → Obj V A T} {rank : Nat → Nat} {val : Nat → A} {k : Nat}
    {w w1 w2 : Writer V A T} {s s1 s2 : Reader V A T} {φ φ1 φ2 ψ ψ1 ψ2 : Nat → Option Nat}
    (a : Step H rank val k w w1 s s1 φ φ1 ψ ψ1) (b : Step H rank val k w1 w2 s1 s2 φ1 φ2 ψ1 ψ2) :
    Step H rank val k w w2 s s2 φ φ2 ψ ψ2 where
  corr := b.corr
  mono := fun r n h => b.mono r n (a.mono r n h)
  amono := fun r n h => b.amono r n (a.amono r n h)
  keep := fun r h => (b.keep r h).trans (a.keep r h)
  fresh := fun r q h => by
    rcases b.fresh r q h with h | h
    · exact a.fresh r q h
    · refine Or.inr ⟨h.1, ?_⟩
      by_contra hc
      exact a.links q hc h.2
  objs := fun r q h => b.objs r q (a.objs r q h)
  links := fun q h => b.links q (a.links q h)
  cache := fun q n h c => b.cache q n (a.links q h) (a.cache q n h c)

theorem Step.same {H : Nat → Obj V A T} {rank : Nat → Nat} {val : Nat → A} {k : Nat}
    {w w' : Writer V A T} {s : Reader V A T} {φ ψ : Nat → Option Nat} (c : Corr H rank val k w s φ ψ)
    (ho : w'.objs = w.objs) (ha : w'.arrs = w.arrs)
    (hl : ∀ q, w.file.links q ≠ none → w'.file.links q ≠ none) :
    Step H rank val k w w' s s φ φ ψ ψ where
  corr := { c with
    objs := by rw [ho]; exact c.objs
    unseen := by rw [ho]; exact c.unseen
    stored := fun r q h => hl q (c.stored r q (by rw [← ho]; exact h))
    arrs := by rw [ha]; exact c.arrs
    aunseen := by rw [ha]; exact c.aunseen
    astored := fun r q h => hl q (c.astored r q (by rw [← ha]; exact h)) }
  mono := fun _ _ h => h
  amono := fun _ _ h => h
  keep := fun _ _ => rfl
  fresh := fun r q h => Or.inl (by rw [← ho]; exact h)
  objs := fun r q h => by rw [ho]; exact h
  links := hl
  cache := fun _ _ _ h => h

theorem addLink_links (f : File V A T) (x : Seg) (p : Path) (l : Link A) (q : Path)
    (h : f.links q ≠ none) : (addLink f x p l).links q ≠ none := by
  simp only [addLink, upd]
  split
  · simp
  · exact h

/-- Writing with `wo` and reading with `ro` correspond. -/
def Sim (H : Nat → Obj V A T) (rank : Nat → Nat) (val : Nat → A) (F : File V A T)
    (wo : Seg → Path → Nat → Writer V A T → Except PyErr (Writer V A T))
    (ro : Seg → Path → Reader V A T → Except PyErr (Reader V A T × Nat)) : Prop :=
  ∀ x p r w w' k s φ ψ, wo x p r w = .ok w' → Fresh w (x :: p) → Corr H rank val k w s φ ψ → rank r < k →
    Agree F w' (x :: p) → ∃ s' φ' ψ' n, ro x p s = .ok (s', n) ∧
      Step H rank val k w w' s s' φ φ' ψ ψ' ∧ φ' r = some n ∧ F.links (x :: p) ≠ none

theorem sim_seq {H : Nat → Obj V A T} {rank : Nat → Nat} {val : Nat → A} {F : File V A T}
    {wo : Seg → Path → Nat → Writer V A T → Except PyErr (Writer V A T)}
    {ro : Seg → Path → Reader V A T → Except PyErr (Reader V A T × Nat)} (hwo : Framed wo)
    (hk : ∀ x p r w w', wo x p r w = .ok w' → Fresh w (x :: p) →
      w'.file.kids p = w.file.kids p + 1)
    (sim : Sim H rank val F wo ro) (g : Path) (rs : List Nat) (i k : Nat) (w w' : Writer V A T)
    (s : Reader V A T) (φ ψ : Nat → Option Nat) (h : writeSeq wo g i rs w = .ok w')
    (hf : ∀ j, i ≤ j → Fresh w (.idx j :: g)) (c : Corr H rank val k w s φ ψ)
    (hr : ∀ r ∈ rs, rank r < k) (ha : Agree F w' g) :
    w'.file.kids g = w.file.kids g + rs.length ∧
    ∃ s' φ' ψ' ns, readSeq ro g i rs.length s = .ok (s', ns) ∧
      Step H rank val k w w' s s' φ φ' ψ ψ' ∧ List.Forall₂ (fun r n => φ' r = some n) rs ns := by
  induction rs generalizing i w s φ ψ with
  | nil =>
    cases h
    exact ⟨rfl, s, φ, ψ, [], rfl, Step.same c rfl rfl (fun _ h => h), .nil⟩
  | cons r rs ih =>
    unfold writeSeq at h
    cases h1 : wo (.idx i) g r w with
    | error e => rw [h1] at h; cases h
    | ok w1 =>
      rw [h1] at h
      have fr1 := hwo _ _ _ _ _ h1
      have fr2 : ∀ q, (Seg.idx i :: g) <:+ q → F.links q = w1.file.links q ∧
          F.attr q = w1.file.attr q ∧ F.tag q = w1.file.tag q ∧ F.kids q = w1.file.kids q := by
        intro q hq
        have hg : g <:+ q := (List.suffix_cons _ _).trans hq
        obtain ⟨a1, a2, a3, a4⟩ := ha q hg
        -- later elements do not touch element `i`
        have later : ∀ (rs : List Nat) (j : Nat) (u u' : Writer V A T), i < j →
            writeSeq wo g j rs u = .ok u' →
            u'.file.links q = u.file.links q ∧ u'.file.attr q = u.file.attr q ∧
            u'.file.tag q = u.file.tag q ∧ u'.file.kids q = u.file.kids q := by
          intro rs
          induction rs with
          | nil => intro j u u' _ h; cases h; exact ⟨rfl, rfl, rfl, rfl⟩
          | cons r rs ih =>
            intro j u u' hj h
            unfold writeSeq at h
            cases h2 : wo (.idx j) g r u with
            | error e => rw [h2] at h; cases h
            | ok u1 =>
              rw [h2] at h
              obtain ⟨b1, b2, b3, b4⟩ := ih (j + 1) u1 u' (by omega) h
              have fr := hwo _ _ _ _ _ h2
              have hn : ¬ (Seg.idx j :: g) <:+ q :=
                suffix_cons_ne (by simp; omega) hq
              refine ⟨b1.trans (fr.links q hn), b2.trans (fr.attr q hn), b3.trans (fr.tag q hn),
                b4.trans (fr.kids q hn ?_)⟩
              rintro rfl
              exact not_suffix_self _ _ hq
        obtain ⟨b1, b2, b3, b4⟩ := later rs (i + 1) w1 w' (by omega) h
        exact ⟨a1.trans b1, a2.trans b2, a3.trans b3, a4.trans b4⟩
      obtain ⟨s1, φ1, ψ1, n, e1, st1, hn, _⟩ := sim _ _ _ _ _ _ _ _ _ h1 (hf i le_rfl) c
        (hr r List.mem_cons_self) fr2
      have hf1 : ∀ j, i + 1 ≤ j → Fresh w1 (.idx j :: g) := by
        intro j hj q hq
        have hn : ¬ (Seg.idx i :: g) <:+ q := suffix_cons_ne (by simp; omega) hq
        obtain ⟨c1, c2, c3⟩ := hf j (by omega) q hq
        refine ⟨(fr1.links q hn).trans c1, (fr1.attr q hn).trans c2, (fr1.kids q hn ?_).trans c3⟩
        rintro rfl
        exact not_suffix_self _ _ hq
      obtain ⟨kd, s2, φ2, ψ2, ns, e2, st2, hns⟩ := ih (i + 1) w1 s1 φ1 ψ1 h hf1 st1.corr
        (fun r hr' => hr r (List.mem_cons_of_mem _ hr'))
      refine ⟨by rw [kd, hk _ _ _ _ _ h1 (hf i le_rfl), List.length_cons]; omega, s2, φ2, ψ2, n :: ns, ?_,
        st1.trans st2, .cons (st2.mono _ _ hn) hns⟩
      rw [List.length_cons]
      unfold readSeq
      rw [e1]
      show (readSeq ro g (i + 1) rs.length s1 >>= _) = _
      rw [e2]; rfl

theorem sim_field {H : Nat → Obj V A T} {rank : Nat → Nat} {val : Nat → A} {F : File V A T}
    {wo : Seg → Path → Nat → Writer V A T → Except PyErr (Writer V A T)}
    {ro : Seg → Path → Reader V A T → Except PyErr (Reader V A T × Nat)} (hwo : Framed wo)
    (hk : ∀ x p r w w', wo x p r w = .ok w' → Fresh w (x :: p) →
      w'.file.kids p = w.file.kids p + 1)
    (sim : Sim H rank val F wo ro) (p : Path) (name : String) (f : Field V A) (kd : Kind) (k : Nat)
    (w w' : Writer V A T) (s : Reader V A T) (φ ψ : Nat → Option Nat)
    (h : writeField wo p w (name, f) = .ok w') (hf : Fresh w (.field name :: p))
    (c : Corr H rank val k w s φ ψ) (hfit : Fits kd f) (hr : ∀ r, Refers f r → rank r < k)
    (hv : ∀ a v, f = .arr a v → v = val a) (ha : Agree F w' (.field name :: p)) :
    ∃ s' φ' ψ' g, readField F ro p s (name, kd) = .ok (s', g) ∧
      Step H rank val k w w' s s' φ φ' ψ ψ' ∧ FieldCopy φ' ψ' (name, f) g := by
  obtain ⟨a1, a2, a3, a4⟩ := ha _ List.suffix_rfl
  obtain ⟨f1, f2, f3⟩ := hf _ List.suffix_rfl
  cases f with
  | absent =>
    cases h
    refine ⟨s, φ, ψ, (name, .absent), ?_, Step.same c rfl rfl (fun _ h => h), ⟨rfl, trivial⟩⟩
    cases kd with
    | scalar => simp only [readField, a2, f2]
    | arr => simp only [readField, readArray, a1, f1]
    | obj => simp only [readField, a1, f1]
    | seq => exact absurd hfit (by simp [Fits])
  | scalar v =>
    cases kd with
    | scalar =>
      cases h
      refine ⟨s, φ, ψ, (name, .scalar v), ?_, Step.same c rfl rfl (fun _ h => h), ⟨rfl, rfl⟩⟩
      have : F.attr (.field name :: p) = some v := by rw [a2]; simp [upd]
      simp only [readField, this]
    | _ => exact absurd hfit (by simp [Fits])
  | arr a v =>
    cases kd with
    | arr =>
      have hv' := hv a v rfl
      subst hv'
      simp only [writeField] at h
      cases h
      unfold writeArray at a1 ⊢
      rw [if_neg (by rw [f1]; simp)] at a1 ⊢
      cases hq : w.arrs a with
      | some q =>
        rw [hq] at a1
        obtain ⟨n, hn, hc⟩ := c.arrs a q hq
        have hx := c.acopy a n hn
        have hl : F.links (.field name :: p) = some (.soft q) := by rw [a1]; simp [addLink, upd]
        refine ⟨s, φ, ψ, (name, .arr n (val a)), ?_,
          Step.same c rfl rfl (fun q' h => addLink_links _ _ _ _ _ h), ⟨rfl, hn, rfl⟩⟩
        simp only [readField, readArray, hl, hc, hx]
      | none =>
        rw [hq] at a1
        have hl : F.links (.field name :: p) = some (.data (val a)) := by rw [a1]; simp [addLink, upd]
        have hψ := c.aunseen a hq
        have hlt : ∀ b n, ψ b = some n → n < s.arrs.length := fun b n hb => by
          by_contra hcon
          have := c.acopy b n hb
          rw [List.getElem?_eq_none (by omega)] at this
          exact absurd this (by simp)
        have hmono : ∀ b n, ψ b = some n → upd ψ a (some s.arrs.length) b = some n := fun b n hb => by
          unfold upd
          rw [if_neg (by rintro rfl; rw [hψ] at hb; cases hb)]; exact hb
        have hne : ∀ q, w.file.links q ≠ none → q ≠ .field name :: p := fun q h e => h (e ▸ f1)
        refine ⟨(loadArray (.field name :: p) (val a) s).1, φ, upd ψ a (some s.arrs.length),
          (name, .arr s.arrs.length (val a)), ?_, ?_, ⟨rfl, by simp [upd], rfl⟩⟩
        · simp only [readField, readArray, hl, loadArray]
        · constructor
          · constructor
            · exact c.objs
            · intro r n hn
              obtain ⟨o, h1, h2, h3⟩ := c.copy r n hn
              exact ⟨o, h1, h2, h3.imp (fun _ _ hh => hh.mono (fun _ _ h => h) hmono)⟩
            · exact c.inj
            · exact c.unseen
            · exact fun r q h => addLink_links _ _ _ _ _ (c.stored r q h)
            · intro b q hb
              simp only [upd] at hb
              split at hb
              · rename_i hba
                subst hba
                cases hb
                exact ⟨s.arrs.length, by simp [upd], by simp [loadArray, upd]⟩
              · obtain ⟨n, h1, h2⟩ := c.arrs b q hb
                refine ⟨n, hmono b n h1, ?_⟩
                simp only [loadArray, upd]
                rw [if_neg (hne q (c.astored b q hb))]; exact h2
            · intro b n hb
              simp only [loadArray]
              unfold upd at hb
              split at hb
              · rename_i hba
                subst hba
                cases hb
                simp
              · rw [List.getElem?_append_left (hlt b n hb)]; exact c.acopy b n hb
            · intro b b' n hb hb'
              unfold upd at hb hb'
              split at hb <;> split at hb'
              · rename_i e1 e2; exact e1.trans e2.symm
              · cases hb
                have := hlt b' _ hb'; omega
              · cases hb'
                have := hlt b _ hb; omega
              · exact c.ainj b b' n hb hb'
            · intro b hb
              simp only [upd] at hb
              unfold upd
              split at hb
              · cases hb
              · rename_i hba
                rw [if_neg hba]; exact c.aunseen b hb
            · intro b q hb
              simp only [upd] at hb
              split at hb
              · cases hb; simp [addLink, upd]
              · exact addLink_links _ _ _ _ _ (c.astored b q hb)
          · exact fun _ _ h => h
          · exact hmono
          · exact fun _ _ => rfl
          · exact fun r q h => Or.inl h
          · exact fun _ _ h => h
          · exact fun q h => addLink_links _ _ _ _ _ h
          · exact fun _ _ _ h => h
    | _ => exact absurd hfit (by simp [Fits])
  | obj r =>
    cases kd with
    | obj =>
      obtain ⟨s', φ', ψ', n, e, st, hn, hl⟩ := sim _ _ _ _ _ _ _ _ _ h hf c (hr r rfl) ha
      refine ⟨s', φ', ψ', (name, .obj n), ?_, st, ⟨rfl, hn⟩⟩
      obtain ⟨l, hl'⟩ := Option.ne_none_iff_exists'.mp hl
      simp only [readField, hl', e]
    | _ => exact absurd hfit (by simp [Fits])
  | seq rs =>
    cases kd with
    | seq =>
      simp only [writeField] at h
      rw [if_neg (by rw [f1]; simp)] at h
      have hlen : ∀ q : Path, (Seg.field name :: p) <:+ q → q ≠ p := by
        rintro q hq rfl; exact not_suffix_self _ _ hq
      have hf' : ∀ j, 0 ≤ j → Fresh (⟨addLink w.file (.field name) p .group, w.objs, w.arrs⟩ : Writer V A T)
          (.idx j :: .field name :: p) := by
        intro j _ q hq
        have hq' : (Seg.field name :: p) <:+ q := (List.suffix_cons _ _).trans hq
        obtain ⟨g1, g2, g3⟩ := hf q hq'
        refine ⟨?_, g2, ?_⟩
        · simp only [addLink, upd]
          rw [if_neg (by rintro rfl; exact not_suffix_self _ _ hq)]; exact g1
        · simp only [addLink, upd]
          rw [if_neg (hlen q hq')]; exact g3
      have c' := Step.same (w' := ⟨addLink w.file (.field name) p .group, w.objs, w.arrs⟩) c rfl rfl
        (fun q h => addLink_links _ _ _ _ _ h)
      obtain ⟨kd', s', φ', ψ', ns, e, st, hns⟩ := sim_seq hwo hk sim _ rs 0 k _ w' s φ ψ h hf' c'.corr
        (fun r hr' => hr r hr') ha
      refine ⟨s', φ', ψ', (name, .seq ns), ?_, c'.trans st, ⟨rfl, hns⟩⟩
      have k0 : (addLink w.file (.field name) p .group).kids (.field name :: p) = 0 := by
        simp only [addLink, upd]
        rw [if_neg (hlen _ List.suffix_rfl)]; exact f3
      have hkids : F.kids (.field name :: p) = rs.length := by
        rw [a4, kd']; show (addLink w.file (.field name) p .group).kids _ + _ = _; rw [k0]; omega
      have hl : F.links (.field name :: p) ≠ none := by
        rw [a1]
        refine st.links _ ?_
        show (addLink w.file (.field name) p .group).links _ ≠ none
        simp [addLink, upd]
      obtain ⟨l, hl'⟩ := Option.ne_none_iff_exists'.mp hl
      simp only [readField, hl', hkids, e]
    | _ => exact absurd hfit (by simp [Fits])

theorem sim_fields {H : Nat → Obj V A T} {rank : Nat → Nat} {val : Nat → A} {F : File V A T}
    {wo : Seg → Path → Nat → Writer V A T → Except PyErr (Writer V A T)}
    {ro : Seg → Path → Reader V A T → Except PyErr (Reader V A T × Nat)} (hwo : Framed wo)
    (hk : ∀ x p r w w', wo x p r w = .ok w' → Fresh w (x :: p) →
      w'.file.kids p = w.file.kids p + 1)
    (sim : Sim H rank val F wo ro) (p : Path) (k : Nat) (fs : List (String × Field V A))
    (kds : List (String × Kind))
    (hord : List.Forall₂ (fun (f : String × Field V A) (k : String × Kind) => f.1 = k.1 ∧ Fits k.2 f.2)
      fs kds)
    (w w' : Writer V A T) (s : Reader V A T) (φ ψ : Nat → Option Nat)
    (h : fs.foldlM (writeField wo p) w = .ok w') (hnd : (fs.map (·.1)).Nodup)
    (hf : ∀ name ∈ fs.map (·.1), Fresh w (.field name :: p)) (c : Corr H rank val k w s φ ψ)
    (hr : ∀ f ∈ fs, ∀ r, Refers f.2 r → rank r < k)
    (hv : ∀ f ∈ fs, ∀ a v, f.2 = .arr a v → v = val a)
    (ha : ∀ name ∈ fs.map (·.1), Agree F w' (.field name :: p)) :
    ∃ s' φ' ψ' gs, readFields F ro p kds s = .ok (s', gs) ∧
      Step H rank val k w w' s s' φ φ' ψ ψ' ∧ List.Forall₂ (FieldCopy φ' ψ') fs gs := by
  induction hord generalizing w s φ ψ with
  | nil =>
    cases h
    exact ⟨s, φ, ψ, [], rfl, Step.same c rfl rfl (fun _ h => h), .nil⟩
  | @cons f kd fs kds hfk hrest ih =>
    rw [List.foldlM_cons] at h
    cases h1 : writeField wo p w f with
    | error e => rw [h1] at h; cases h
    | ok w1 =>
      rw [h1] at h
      obtain ⟨name, fd⟩ := f
      obtain ⟨name', kind⟩ := kd
      obtain ⟨hnm, hfit⟩ := hfk
      dsimp only at hnm hfit
      subst hnm
      have fr1 := writeField_frame hwo p _ w w1 h1
      rw [List.map_cons, List.nodup_cons] at hnd
      have ag1 : Agree F w1 (.field name :: p) := by
        intro q hq
        obtain ⟨b1, b2, b3, b4⟩ := ha name (by simp) q hq
        have later : ∀ (fs : List (String × Field V A)) (u u' : Writer V A T),
            name ∉ fs.map (·.1) → fs.foldlM (writeField wo p) u = .ok u' →
            u'.file.links q = u.file.links q ∧ u'.file.attr q = u.file.attr q ∧
            u'.file.tag q = u.file.tag q ∧ u'.file.kids q = u.file.kids q := by
          intro fs
          induction fs with
          | nil => intro u u' _ h; cases h; exact ⟨rfl, rfl, rfl, rfl⟩
          | cons f fs ih =>
            intro u u' hn h
            rw [List.foldlM_cons] at h
            cases h2 : writeField wo p u f with
            | error e => rw [h2] at h; cases h
            | ok u1 =>
              rw [h2] at h
              rw [List.map_cons, List.mem_cons] at hn
              push Not at hn
              obtain ⟨d1, d2, d3, d4⟩ := ih u1 u' hn.2 h
              have fr := writeField_frame hwo p _ u u1 h2
              have hns : ¬ (Seg.field f.1 :: p) <:+ q :=
                suffix_cons_ne (by simpa using hn.1) hq
              refine ⟨d1.trans (fr.links q hns), d2.trans (fr.attr q hns), d3.trans (fr.tag q hns),
                d4.trans (fr.kids q hns ?_)⟩
              rintro rfl
              exact not_suffix_self _ _ hq
        obtain ⟨d1, d2, d3, d4⟩ := later fs w1 w' hnd.1 h
        exact ⟨b1.trans d1, b2.trans d2, b3.trans d3, b4.trans d4⟩
      obtain ⟨s1, φ1, ψ1, g, e1, st1, hg⟩ := sim_field hwo hk sim p name fd kind k w w1 s φ ψ h1
        (hf name (by simp)) c hfit (hr _ List.mem_cons_self) (hv _ List.mem_cons_self) ag1
      have hf1 : ∀ n ∈ fs.map (·.1), Fresh w1 (.field n :: p) := by
        intro n hn q hq
        have hne : name ≠ n := by rintro rfl; exact hnd.1 hn
        have hns : ¬ (Seg.field name :: p) <:+ q := suffix_cons_ne (by simpa using hne.symm) hq
        obtain ⟨c1, c2, c3⟩ := hf n (by rw [List.map_cons]; exact List.mem_cons_of_mem _ hn) q hq
        refine ⟨(fr1.links q hns).trans c1, (fr1.attr q hns).trans c2, (fr1.kids q hns ?_).trans c3⟩
        rintro rfl
        exact not_suffix_self _ _ hq
      obtain ⟨s2, φ2, ψ2, gs, e2, st2, hgs⟩ := ih w1 s1 φ1 ψ1 h hnd.2 hf1 st1.corr
        (fun f hf => hr f (List.mem_cons_of_mem _ hf)) (fun f hf => hv f (List.mem_cons_of_mem _ hf))
        (fun n hn => ha n (by rw [List.map_cons]; exact List.mem_cons_of_mem _ hn))
      refine ⟨s2, φ2, ψ2, g :: gs, ?_, st1.trans st2, .cons (hg.mono st2.mono st2.amono) hgs⟩
      simp only [readFields, e1, e2]

theorem sim_obj {H : Nat → Obj V A T} {schema : T → List (String × Kind)} {rank : Nat → Nat}
    {val : Nat → A} (snd : Sound H schema rank val) (reg : T → Bool) (F : File V A T) (R : Nat) :
    Sim H rank val F (writeObj H reg R) (readObj F schema reg R) := by
  induction R with
  | zero => intro x p r w w' k s φ ψ h; cases h
  | succ R ih =>
    intro x p r w w' k s φ ψ h hf c hrk ha
    obtain ⟨a1, a2, a3, a4⟩ := ha _ List.suffix_rfl
    obtain ⟨f1, f2, f3⟩ := hf _ List.suffix_rfl
    unfold writeObj at h
    split at h
    · cases h
    rename_i hreg
    rw [if_neg (by rw [f1]; simp)] at h
    cases ho : w.objs r with
    | some q =>
      rw [ho] at h
      dsimp only at h
      cases h
      obtain ⟨n, hn, hc⟩ := c.objs r q ho hrk
      have hl : F.links (x :: p) = some (.soft q) := by rw [a1]; simp [addLink, upd]
      refine ⟨s, φ, ψ, n, ?_, Step.same c rfl rfl (fun q h => addLink_links _ _ _ _ _ h), hn, by
        rw [hl]; simp⟩
      simp only [readObj, hl, hc]
    | none =>
      rw [ho] at h
      dsimp only at h
      split at h
      · cases h
      rename_i w2 h2
      cases h
      -- before the fields
      have hne : ∀ q, w.file.links q ≠ none → q ≠ x :: p := fun q h e => h (e ▸ f1)
      have c1 : Corr H rank val (rank r)
          (⟨addLink w.file x p .group, upd w.objs r (some (x :: p)), w.arrs⟩ : Writer V A T) s φ ψ := by
        constructor
        · intro r' q hq hlt
          simp only [upd] at hq
          rw [if_neg (by rintro rfl; omega)] at hq
          exact c.objs r' q hq (by omega)
        · exact c.copy
        · exact c.inj
        · intro r' hq
          simp only [upd] at hq
          split at hq
          · cases hq
          · exact c.unseen r' hq
        · intro r' q hq
          simp only [upd] at hq
          split at hq
          · cases hq; simp [addLink, upd]
          · exact addLink_links _ _ _ _ _ (c.stored r' q hq)
        · exact c.arrs
        · exact c.acopy
        · exact c.ainj
        · exact c.aunseen
        · exact fun a q hq => addLink_links _ _ _ _ _ (c.astored a q hq)
      have hf1 : ∀ name ∈ (H r).fields.map (·.1), Fresh (⟨addLink w.file x p .group,
          upd w.objs r (some (x :: p)), w.arrs⟩ : Writer V A T) (.field name :: x :: p) := by
        intro name _ q hq
        have hq' : (x :: p) <:+ q := (List.suffix_cons _ _).trans hq
        obtain ⟨g1, g2, g3⟩ := hf q hq'
        refine ⟨?_, g2, ?_⟩
        · simp only [addLink, upd]
          rw [if_neg (by rintro rfl; exact not_suffix_self _ _ hq)]; exact g1
        · simp only [addLink, upd]
          rw [if_neg (by rintro rfl; exact not_suffix_self _ _ hq')]; exact g3
      obtain ⟨s2, φ2, ψ2, gs, e2, st, hgs⟩ := sim_fields (writeObj_frame H reg R)
        (writeObj_kids H reg R) ih (x :: p) (rank r) (H r).fields (schema (H r).tag) (snd.order r) _ w2
        s φ ψ h2 (snd.names r) hf1 c1 (snd.acyclic r) (snd.arrays r) (by
          intro name _ q hq
          have hq' : (x :: p) <:+ q := (List.suffix_cons _ _).trans hq
          obtain ⟨b1, b2, b3, b4⟩ := ha q hq'
          refine ⟨b1, b2, ?_, b4⟩
          rw [b3]
          simp only [upd]
          rw [if_neg (by rintro rfl; exact not_suffix_self _ _ hq)])
      have hφr : φ2 r = none := (st.keep r le_rfl).trans (c.unseen r ho)
      have hlt : ∀ b n, φ2 b = some n → n < s2.objs.length := fun b n hb => by
        by_contra hcon
        obtain ⟨o, h1, _⟩ := st.corr.copy b n hb
        rw [List.getElem?_eq_none (by omega)] at h1
        exact absurd h1 (by simp)
      have hmono : ∀ b n, φ2 b = some n → upd φ2 r (some s2.objs.length) b = some n := fun b n hb => by
        unfold upd
        rw [if_neg (by rintro rfl; rw [hφr] at hb; cases hb)]; exact hb
      have hl : F.links (x :: p) = some .group := by
        rw [a1]
        have key : ∀ (fs : List (String × Field V A)) (u u' : Writer V A T),
            fs.foldlM (writeField (writeObj H reg R) (x :: p)) u = .ok u' →
            u'.file.links (x :: p) = u.file.links (x :: p) := by
          intro fs
          induction fs with
          | nil => intro u u' h; cases h; rfl
          | cons f fs ih' =>
            intro u u' h
            rw [List.foldlM_cons] at h
            cases h1 : writeField (writeObj H reg R) (x :: p) u f with
            | error e => rw [h1] at h; cases h
            | ok u1 =>
              rw [h1] at h
              rw [ih' _ _ h]
              exact (writeField_frame (writeObj_frame H reg R) _ f u u1 h1).links _ (not_suffix_self _ _)
        show w2.file.links (x :: p) = _
        rw [key _ _ _ h2]
        simp [addLink, upd]
      have ht : F.tag (x :: p) = some (H r).tag := by rw [a3]; simp [upd]
      refine ⟨{ s2 with
          objs := s2.objs ++ [⟨(H r).tag, gs⟩]
          cache := upd s2.cache (x :: p) (some s2.objs.length) }, upd φ2 r (some s2.objs.length), ψ2,
        s2.objs.length, ?_, ?_, by simp [upd], by rw [hl]; simp⟩
      · simp only [readObj, hl, readGroup, ht, e2]
        rw [if_neg hreg]
      · constructor
        · constructor
          · intro r' q hq hlt'
            change w2.objs r' = some q at hq
            by_cases hrr : r' = r
            · subst hrr
              have : w2.objs r' = some (x :: p) := st.objs r' (x :: p) (by simp [upd])
              rw [this] at hq
              cases hq
              exact ⟨s2.objs.length, by simp [upd], by simp [upd]⟩
            · have hcache : ∀ n, s2.cache q = some n → φ2 r' = some n →
                  w2.file.links q ≠ none → q ≠ x :: p →
                  ∃ n, upd φ2 r (some s2.objs.length) r' = some n ∧
                    upd s2.cache (x :: p) (some s2.objs.length) q = some n := by
                intro n h1 h2 _ h3
                refine ⟨n, hmono _ _ h2, ?_⟩
                unfold upd; rw [if_neg h3]; exact h1
              rcases st.fresh r' q hq with hold | ⟨hnew, hfree⟩
              · simp only [upd] at hold
                rw [if_neg hrr] at hold
                obtain ⟨n, h1, h3⟩ := c.objs r' q hold hlt'
                have hst := c.stored r' q hold
                exact hcache n (st.cache q n (addLink_links _ _ _ _ _ hst) h3) (st.mono _ _ h1)
                  (st.links q (addLink_links _ _ _ _ _ hst)) (hne q hst)
              · obtain ⟨n, h1, h3⟩ := st.corr.objs r' q hq hnew
                refine hcache n h3 h1 (st.corr.stored r' q hq) ?_
                rintro rfl
                exact absurd hfree (by simp [addLink, upd])
          · intro r' n hn
            unfold upd at hn
            split at hn
            · rename_i hrr
              subst hrr
              cases hn
              exact ⟨⟨(H r').tag, gs⟩, by simp, rfl,
                hgs.imp (fun _ _ hh => hh.mono hmono (fun _ _ h => h))⟩
            · obtain ⟨o, h1, h3, h4⟩ := st.corr.copy r' n hn
              exact ⟨o, by rw [List.getElem?_append_left (hlt r' n hn)]; exact h1, h3,
                h4.imp (fun _ _ hh => hh.mono hmono (fun _ _ h => h))⟩
          · intro b b' n hb hb'
            unfold upd at hb hb'
            split at hb <;> split at hb'
            · rename_i e1 e2; exact e1.trans e2.symm
            · cases hb
              have := hlt b' _ hb'; omega
            · cases hb'
              have := hlt b _ hb; omega
            · exact st.corr.inj b b' n hb hb'
          · intro r' hq
            change w2.objs r' = none at hq
            unfold upd
            rw [if_neg]
            · exact st.corr.unseen r' hq
            · rintro rfl
              rw [st.objs r' (x :: p) (by simp [upd])] at hq
              cases hq
          · exact st.corr.stored
          · exact st.corr.arrs
          · exact st.corr.acopy
          · exact st.corr.ainj
          · exact st.corr.aunseen
          · exact st.corr.astored
        · exact fun r' n h => hmono r' n (st.mono r' n h)
        · exact st.amono
        · intro r' hr'
          unfold upd
          rw [if_neg (by rintro rfl; omega)]
          exact st.keep r' (by omega)
        · intro r' q hq
          change w2.objs r' = some q at hq
          rcases st.fresh r' q hq with hold | ⟨h1, h3⟩
          · simp only [upd] at hold
            split at hold
            · rename_i hrr
              subst hrr
              cases hold
              exact Or.inr ⟨hrk, f1⟩
            · exact Or.inl hold
          · refine Or.inr ⟨by omega, ?_⟩
            by_contra hc
            exact addLink_links _ _ _ _ _ hc h3
        · intro r' q hq
          refine st.objs r' q ?_
          simp only [upd]
          rw [if_neg (by rintro rfl; rw [ho] at hq; cases hq)]; exact hq
        · exact fun q hq => st.links q (addLink_links _ _ _ _ _ hq)
        · intro q n hq hc
          show upd s2.cache (x :: p) _ q = _
          unfold upd
          rw [if_neg (hne q hq)]
          exact st.cache q n (addLink_links _ _ _ _ _ hq) hc

/-! ### Round trips -/

/-- **C32** (same order): a graph without reference cycles, whose classes read their fields in the
order in which they write them, is read back from the file completely.  There are renamings of objects
and arrays, one to one, under which the object read at the root and every object reachable from it has
the tag and the field values of the original, so two fields which shared an object share its copy and
two which did not do not.  Missing for the full claim: cycles, other reading orders, re-used array
addresses, classes not writing all of their fields — these fail, see below. -/
theorem C32_round_trip_partial {H : Nat → Obj V A T} {schema : T → List (String × Kind)}
    {rank : Nat → Nat} {val : Nat → A} (snd : Sound H schema rank val) (reg : T → Bool) (R root : Nat)
    (w : Writer V A T) (hroot : "arrays" ∉ (H root).fields.map (·.1))
    (h : writeRoot H reg R root = .ok w) :
    ∃ s fs φ ψ, readRoot w.file schema reg R (H root).tag = .ok (s, fs) ∧ Inj φ ∧ Inj ψ ∧
      List.Forall₂ (FieldCopy φ ψ) (H root).fields fs ∧
      (∀ r n, φ r = some n → ∃ o, s.objs[n]? = some o ∧ o.tag = (H r).tag ∧
        List.Forall₂ (FieldCopy φ ψ) (H r).fields o.fields) ∧
      (∀ a n, ψ a = some n → s.arrs[n]? = some (val a)) := by
  have c : Corr H rank val (rank root) (newWriter : Writer V A T) newReader (fun _ => none)
      (fun _ => none) := by
    constructor <;> intros <;> simp_all [newWriter, Inj]
  have hf : ∀ name ∈ (H root).fields.map (·.1), Fresh (newWriter : Writer V A T) [.field name] := by
    intro name hn q hq
    refine ⟨?_, rfl, ?_⟩
    · simp only [newWriter, addLink, upd]
      rw [if_neg]
      rintro rfl
      refine suffix_cons_ne (x := .field name) (y := .field "arrays") (p := []) ?_ hq
        List.suffix_rfl
      intro e
      simp only [Seg.field.injEq] at e
      exact hroot (e ▸ hn)
    · simp only [newWriter, addLink, upd]
      rw [if_neg]
      rintro rfl
      exact not_suffix_self _ _ hq
  obtain ⟨s, φ, ψ, gs, e, st, hgs⟩ := sim_fields (writeObj_frame H reg R) (writeObj_kids H reg R)
    (sim_obj snd reg w.file R) [] (rank root) (H root).fields (schema (H root).tag) (snd.order root)
    newWriter w newReader _ _ h (snd.names root) hf c (snd.acyclic root) (snd.arrays root)
    (fun _ _ q _ => ⟨rfl, rfl, rfl, rfl⟩)
  exact ⟨s, gs, φ, ψ, e, st.corr.inj, st.corr.ainj, hgs, st.corr.copy, st.corr.acopy⟩

end Verif.Io
