import Verif.Channel.RadarProps
import Verif.Channel.ConsistentStats

/-!
# C78: radar channels and their targets

`hermespy/channel/radar/single.py`: configuration of a channel with a single target, the path its
realizations generate, and what is left of them after storing and restoring.
-/

namespace Verif.RadarChannel

open Verif Verif.Core Finset
open Verif.Consistent (Var normCdf)
open Verif.Channel.State (Sig Csi)

/-! ### Single target: model -/

/-- What a user may assign: Python floats, integers, tuples and lists of numbers, cartesian arrays, anything
else. -/
inductive Setting
  | float (x : ℝ)
  | int (n : ℤ)
  | tuple (l : List ℝ)
  | list (l : List ℝ)
  | array (v : Vec3)
  | other

/-- The checks of a span shared by all setters, channel/radar/single.py 292-296, 319-325, 368-374 and
392-396. -/
def checkSpan (l : List ℝ) [Decidable (l.getD 1 0 < l.getD 0 0)] : Except PyErr Unit :=
  if l.length ≠ 2 then .error .value
  else if l.getD 1 0 < l.getD 0 0 then .error .value
  else .ok ()

open Classical in
/-- `target_range.setter`, channel/radar/single.py 285-304: the value stored. -/
noncomputable def setRange (value : Setting) : Except PyErr Setting :=
  match value with
  | .float x => if x < 0 then .error .value else .ok value
  | .int n => if n < 0 then .error .value else .ok value
  | .tuple l | .list l =>
    match checkSpan l with
    | .error e => .error e
    | .ok () => if l.getD 0 0 < 0 then .error .value else .ok value
  | _ => .error .value

open Classical in
/-- `target_velocity.setter`, `target_azimuth.setter` and `target_zenith.setter`, channel/radar/single.py
315-327, 365-376 and 389-398. -/
noncomputable def setSpan (value : Setting) : Except PyErr Setting :=
  match value with
  | .tuple l | .list l =>
    match checkSpan l with
    | .error e => .error e
    | .ok () => .ok value
  | _ => .ok value

/-- Configuration of a `SingleTargetRadarChannel`, channel/radar/single.py 194-199.  The decorrelation
distance is infinite by default. -/
structure Single where
  range : Setting
  rcs : ℝ
  azimuth : Setting
  zenith : Setting
  present : Bool
  velocity : Setting
  distance : Option ℝ
  attenuate : Bool
  gain : ℝ
  seed : Option ℤ

open Classical in
/-- `SingleTargetRadarChannel.__init__`, channel/radar/single.py 253-270: the gain is checked by the base
class (channel/channel.py 818-819), then the setters run in turn. -/
noncomputable def Single.construct (a : Single) : Except PyErr Single :=
  if a.gain < 0 then .error .value
  else match setRange a.range with
  | .error e => .error e
  | .ok r =>
    if a.rcs < 0 then .error .value
    else match setSpan a.azimuth with
    | .error e => .error e
    | .ok az =>
      match setSpan a.zenith with
      | .error e => .error e
      | .ok ze =>
        match setSpan a.velocity with
        | .error e => .error e
        | .ok v =>
          if ∃ d, a.distance = some d ∧ d < 0 then .error .value
          else .ok { a with range := r, azimuth := az, zenith := ze, velocity := v }

/-- The statements by which the constructor creates its generator and variables, channel/radar/single.py
257-262. -/
def creation : List Verif.Consistent.Op :=
  [.newGen, .newVar none 0, .add 0 0, .newVar none 0, .add 0 1, .newVar none 0, .add 0 2,
    .newVar none 0, .add 0 3, .newVar none 0, .add 0 4]

/-- The variables of range, azimuth, zenith, velocity and phase. -/
def targetVars : List Var := (Verif.Consistent.run creation).vars

/-- A `SingleTargetRadarChannelRealization`, channel/radar/single.py 54-69. -/
structure SingleReal where
  consistent : Verif.Consistent.Realization
  vars : List Var
  range : Option Setting
  azimuth : Setting
  zenith : Setting
  rcs : ℝ
  velocity : Setting
  attenuate : Bool
  gain : ℝ

/-- `_realize`, channel/radar/single.py 429-445. -/
def Single.realize (c : Single) (r : Verif.Consistent.Realization) : SingleReal :=
  ⟨r, targetVars, if c.present then some c.range else none, c.azimuth, c.zenith, c.rcs, c.velocity,
    c.attenuate, c.gain⟩

/-- `variable.sample(consistent_sample).item()` of the `k`-th variable. -/
noncomputable def item (vars : List Var) (k : Nat) (scalars : List ℝ) : Except PyErr ℝ :=
  match vars[k]? with
  | none => .error .attribute
  | some v =>
    match v.uniform scalars with
    | .error e => .error e
    | .ok [x] => .ok x
    | .ok _ => .error .value

/-- A number drawn from a span, or the number itself, channel/radar/single.py 81-108: an array or an object
of another type cannot be converted into an angle (line 111). -/
noncomputable def drawn (s : Setting) (u : Except PyErr ℝ) : Except PyErr ℝ :=
  match s with
  | .float x => .ok x
  | .int n => .ok n
  | .tuple l | .list l =>
    match u with
    | .error e => .error e
    | .ok u => .ok (l.getD 0 0 + (l.getD 1 0 - l.getD 0 0) * u)
  | .array _ => .error .value
  | .other => .error .type

/-- Velocity vector of a target, channel/radar/single.py 114-122. -/
noncomputable def drawnVelocity (s : Setting) (direction : Vec3) (u : Except PyErr ℝ) : Except PyErr Vec3 :=
  match s with
  | .array v => .ok v
  | s =>
    match drawn s u with
    | .error e => .error e
    | .ok x => .ok fun i => direction i * x

/-- `_generate_paths`, channel/radar/single.py 71-133. -/
noncomputable def SingleReal.paths (r : SingleReal) (tx rx : Dev) : Except PyErr (List Path) :=
  match r.range with
  | none => .ok []
  | some range =>
    match r.consistent.sample tx.pos rx.pos with
    | .error e => .error e
    | .ok scalars =>
      match drawn range (item r.vars 0 scalars) with
      | .error e => .error e
      | .ok distance =>
        match drawn r.azimuth (item r.vars 1 scalars) with
        | .error e => .error e
        | .ok azimuth =>
          match drawn r.zenith (item r.vars 2 scalars) with
          | .error e => .error e
          | .ok zenith =>
            match drawnVelocity r.velocity (fromSpherical azimuth zenith) (item r.vars 3 scalars) with
            | .error e => .error e
            | .ok velocity =>
              match item r.vars 4 scalars with
              | .error e => .error e
              | .ok u => .ok [.target (fun i => fromSpherical azimuth zenith i * distance) velocity
                  r.rcs (2 * Real.pi * u) r.attenuate false]

/-! ### Single target: storage -/

/-- `serialize_range`, core/factory.py 484-499: the attributes written, `none` for no attribute at all. -/
inductive RangeRecord
  | missing
  | scalar (x : ℝ)
  | pair (a b : ℝ)

def serializeRange (s : Option Setting) : Except PyErr RangeRecord :=
  match s with
  | none => .ok .missing
  | some (.tuple l) =>
    match l with
    | a :: b :: _ => .ok (.pair a b)
    | _ => .error .index
  | some (.float x) => .ok (.scalar x)
  | some _ => .error .value

/-- `deserialize_range`, core/factory.py 797-812, with and without a default. -/
def deserializeRange (r : RangeRecord) (default : Option Setting) : Except PyErr Setting :=
  match r with
  | .scalar x => .ok (.float x)
  | .pair a b => .ok (.tuple [a, b])
  | .missing =>
    match default with
    | some d => .ok d
    | none => .error .runtime

/-- The array written for the velocity, channel/radar/single.py 148-155 and 460-468: values and whether the
array has a dimension at all.  `np.asarray` of an unknown object is out of scope. -/
def serializeVelocity (s : Setting) : Except PyErr (List ℝ × Bool) :=
  match s with
  | .float x => .ok ([x], true)
  | .int n => .ok ([n], false)
  | .tuple l => .ok (l, true)
  | .list l => .ok (l, true)
  | .array v => .ok ([v 0, v 1, v 2], true)
  | .other => .error .type

/-- What a stored `SingleTargetRadarChannel` consists of, channel/radar/single.py 448-469. -/
structure SingleRecord where
  gain : ℝ
  seed : Option ℤ
  attenuate : Bool
  range : RangeRecord
  azimuth : RangeRecord
  zenith : RangeRecord
  rcs : ℝ
  present : Bool
  velocity : List ℝ × Bool
  distance : Option ℝ

/-- `SingleTargetRadarChannel.serialize`, channel/radar/single.py 448-469. -/
def Single.serialize (c : Single) : Except PyErr SingleRecord :=
  match serializeRange (some c.range) with
  | .error e => .error e
  | .ok r =>
    match serializeRange (some c.azimuth) with
    | .error e => .error e
    | .ok az =>
      match serializeRange (some c.zenith) with
      | .error e => .error e
      | .ok ze =>
        match serializeVelocity c.velocity with
        | .error e => .error e
        | .ok v => .ok ⟨c.gain, c.seed, c.attenuate, r, az, ze, c.rcs, c.present, v, c.distance⟩

/-- The velocity read by a channel, channel/radar/single.py 475-479: `len` of an array without dimensions is
a `TypeError`.  An array of another size stays one. -/
def channelVelocity (v : List ℝ × Bool) : Except PyErr Setting :=
  if v.2 then
    match v.1 with
    | [x] => .ok (.float x)
    | [a, b] => .ok (.tuple [a, b])
    | [a, b, c] => .ok (.array ![a, b, c])
    | _ => .ok .other
  else .error .type

/-- `SingleTargetRadarChannel.Deserialize`, channel/radar/single.py 473-489. -/
noncomputable def Single.deserialize (p : SingleRecord) : Except PyErr Single :=
  match channelVelocity p.velocity with
  | .error e => .error e
  | .ok v =>
    match deserializeRange p.range none with
    | .error e => .error e
    | .ok r =>
      match deserializeRange p.azimuth (some (.float 0)) with
      | .error e => .error e
      | .ok az =>
        match deserializeRange p.zenith (some (.float 0)) with
        | .error e => .error e
        | .ok ze =>
          Single.construct ⟨r, p.rcs, az, ze, p.present, v, p.distance, p.attenuate, p.gain, p.seed⟩

/-- The velocity read by a realization, channel/radar/single.py 161-166. -/
def realizationVelocity (v : List ℝ × Bool) : Except PyErr Setting :=
  match v.1 with
  | [x] => .ok (.float x)
  | a :: b :: _ => .ok (.tuple [a, b])
  | [] => .error .index

/-- `SingleTargetRadarChannelRealization.serialize` followed by `Deserialize`, channel/radar/single.py
135-182.  The consistent realization and its variables are objects of their own (see C74). -/
def SingleReal.restore (r : SingleReal) : Except PyErr SingleReal :=
  match serializeRange r.range with
  | .error e => .error e
  | .ok range =>
    match serializeRange (some r.azimuth) with
    | .error e => .error e
    | .ok az =>
      match serializeRange (some r.zenith) with
      | .error e => .error e
      | .ok ze =>
        match serializeVelocity r.velocity with
        | .error e => .error e
        | .ok v =>
          match realizationVelocity v with
          | .error e => .error e
          | .ok v' =>
            match deserializeRange range none with
            | .error e => .error e
            | .ok range' =>
              match deserializeRange az none with
              | .error e => .error e
              | .ok az' =>
                match deserializeRange ze none with
                | .error e => .error e
                | .ok ze' => .ok { r with range := some range', azimuth := az', zenith := ze', velocity := v' }

/-! ### Single target: configuration -/

/-- A number is a legal value of a setting. -/
def Setting.Holds (s : Setting) (x : ℝ) : Prop :=
  match s with
  | .float y => x = y
  | .int n => x = n
  | .tuple l | .list l => ∃ a b, l = [a, b] ∧ a ≤ b ∧ a ≤ x ∧ x ≤ b
  | _ => False

/-- The span is well-formed. -/
def Setting.Span (s : Setting) : Prop :=
  match s with
  | .tuple l | .list l => ∃ a b, l = [a, b] ∧ a ≤ b
  | _ => True

/-- The range is well-formed. -/
def Setting.Distance (s : Setting) : Prop :=
  match s with
  | .float x => 0 ≤ x
  | .int n => 0 ≤ n
  | .tuple l | .list l => ∃ a b, l = [a, b] ∧ 0 ≤ a ∧ a ≤ b
  | _ => False

open Classical in
theorem checkSpan_ok (l : List ℝ) : checkSpan l = .ok () ↔ ∃ a b, l = [a, b] ∧ a ≤ b := by
  unfold checkSpan
  match l with
  | [] => simp
  | [_] => simp
  | [a, b] => simp
  | _ :: _ :: _ :: _ => simp

open Classical in
theorem checkSpan_error (l : List ℝ) (h : checkSpan l ≠ .ok ()) : checkSpan l = .error .value := by
  unfold checkSpan at h ⊢
  split
  · rfl
  · split
    · rfl
    · rename_i h1 h2
      exact absurd (by rw [if_neg h1, if_neg h2]) h

open Classical in
theorem setRange_iff (s : Setting) : (s.Distance → setRange s = .ok s) ∧
    (¬ s.Distance → setRange s = .error .value) := by
  have key : ∀ (l : List ℝ) (s : Setting), ((∃ a b, l = [a, b] ∧ 0 ≤ a ∧ a ≤ b) →
      (match checkSpan l with
        | .error e => .error e
        | .ok () => if l.getD 0 0 < 0 then .error .value else .ok s : Except PyErr Setting) = .ok s) ∧
      (¬ (∃ a b, l = [a, b] ∧ 0 ≤ a ∧ a ≤ b) →
      (match checkSpan l with
        | .error e => .error e
        | .ok () => if l.getD 0 0 < 0 then .error .value else .ok s : Except PyErr Setting) =
          .error .value) := by
    intro l s
    by_cases hc : checkSpan l = .ok ()
    · rw [hc]
      obtain ⟨a, b, rfl, hab⟩ := (checkSpan_ok l).mp hc
      by_cases ha : a < 0
      · refine ⟨?_, fun _ => by simp [ha]⟩
        rintro ⟨a', b', h, h0, -⟩
        cases h
        exact absurd ha (not_lt.mpr h0)
      · refine ⟨fun _ => by simp [ha], fun h => absurd ⟨a, b, rfl, not_lt.mp ha, hab⟩ h⟩
    · rw [checkSpan_error l hc]
      refine ⟨?_, fun _ => rfl⟩
      rintro ⟨a, b, h, -, hab⟩
      exact absurd ((checkSpan_ok l).mpr ⟨a, b, h, hab⟩) hc
  cases s with
  | float x =>
    refine ⟨fun h => ?_, fun h => ?_⟩
    · exact if_neg (not_lt.mpr h)
    · exact if_pos (not_le.mp h)
  | int n =>
    refine ⟨fun h => ?_, fun h => ?_⟩
    · exact if_neg (not_lt.mpr h)
    · exact if_pos (not_le.mp h)
  | tuple l => exact key l _
  | list l => exact key l _
  | array v => exact ⟨fun h => h.elim, fun _ => rfl⟩
  | other => exact ⟨fun h => h.elim, fun _ => rfl⟩

open Classical in
theorem setSpan_iff (s : Setting) : (s.Span → setSpan s = .ok s) ∧
    (¬ s.Span → setSpan s = .error .value) := by
  have key : ∀ (l : List ℝ) (s : Setting), ((∃ a b, l = [a, b] ∧ a ≤ b) →
      (match checkSpan l with
        | .error e => .error e
        | .ok () => .ok s : Except PyErr Setting) = .ok s) ∧
      (¬ (∃ a b, l = [a, b] ∧ a ≤ b) →
      (match checkSpan l with
        | .error e => .error e
        | .ok () => .ok s : Except PyErr Setting) = .error .value) := by
    intro l s
    by_cases hc : checkSpan l = .ok ()
    · rw [hc]
      exact ⟨fun _ => rfl, fun h => absurd ((checkSpan_ok l).mp hc) h⟩
    · rw [checkSpan_error l hc]
      exact ⟨fun h => absurd ((checkSpan_ok l).mpr h) hc, fun _ => rfl⟩
  cases s with
  | tuple l => exact key l _
  | list l => exact key l _
  | _ => exact ⟨fun _ => rfl, fun h => absurd trivial h⟩

/-- A legal configuration. -/
def Single.Legal (a : Single) : Prop :=
  0 ≤ a.gain ∧ a.range.Distance ∧ 0 ≤ a.rcs ∧ a.azimuth.Span ∧ a.zenith.Span ∧ a.velocity.Span ∧
    ∀ d, a.distance = some d → 0 ≤ d

open Classical in
/-- C78: a channel with a single target is created exactly from non-negative gains, cross sections and
distances, and ordered spans; then it holds what it was created from, otherwise a `ValueError` is raised. -/
theorem C78_construct (a : Single) :
    (a.Legal → a.construct = .ok a) ∧ (¬ a.Legal → a.construct = .error .value) := by
  unfold Single.construct Single.Legal
  by_cases h1 : a.gain < 0
  · rw [if_pos h1]
    exact ⟨fun h => absurd h1 (not_lt.mpr h.1), fun _ => rfl⟩
  rw [if_neg h1]
  by_cases h2 : a.range.Distance
  swap
  · rw [(setRange_iff _).2 h2]
    exact ⟨fun h => absurd h.2.1 h2, fun _ => rfl⟩
  rw [(setRange_iff _).1 h2]
  dsimp only
  by_cases h3 : a.rcs < 0
  · rw [if_pos h3]
    exact ⟨fun h => absurd h3 (not_lt.mpr h.2.2.1), fun _ => rfl⟩
  rw [if_neg h3]
  by_cases h4 : a.azimuth.Span
  swap
  · rw [(setSpan_iff _).2 h4]
    exact ⟨fun h => absurd h.2.2.2.1 h4, fun _ => rfl⟩
  rw [(setSpan_iff _).1 h4]
  dsimp only
  by_cases h5 : a.zenith.Span
  swap
  · rw [(setSpan_iff _).2 h5]
    exact ⟨fun h => absurd h.2.2.2.2.1 h5, fun _ => rfl⟩
  rw [(setSpan_iff _).1 h5]
  dsimp only
  by_cases h6 : a.velocity.Span
  swap
  · rw [(setSpan_iff _).2 h6]
    exact ⟨fun h => absurd h.2.2.2.2.2.1 h6, fun _ => rfl⟩
  rw [(setSpan_iff _).1 h6]
  dsimp only
  by_cases h7 : ∃ d, a.distance = some d ∧ d < 0
  · rw [if_pos h7]
    refine ⟨fun h => ?_, fun _ => rfl⟩
    obtain ⟨d, hd, hn⟩ := h7
    exact absurd hn (not_lt.mpr (h.2.2.2.2.2.2 d hd))
  · rw [if_neg h7]
    refine ⟨fun _ => rfl, fun h => absurd ⟨not_lt.mp h1, h2, not_lt.mp h3, h4, h5, h6, ?_⟩ h⟩
    intro d hd
    by_contra hn
    exact h7 ⟨d, hd, not_le.mp hn⟩

/-- A target at ten to twenty metres. -/
noncomputable def demoSingle : Single :=
  ⟨.tuple [10, 20], 1, .float 0, .list [0, 1], true, .float 5, none, true, 1, none⟩

theorem demoSingle_legal : demoSingle.Legal :=
  ⟨zero_le_one, ⟨10, 20, rfl, by norm_num, by norm_num⟩, zero_le_one, trivial,
    ⟨0, 1, rfl, zero_le_one⟩, trivial, fun _ h => by cases h⟩

example : demoSingle.construct = .ok demoSingle := (C78_construct _).1 demoSingle_legal

example : ({ demoSingle with range := .tuple [20, 10] } : Single).construct = .error .value :=
  (C78_construct _).2 fun h => by
    obtain ⟨a, b, hl, -, hab⟩ := h.2.1
    cases hl
    norm_num at hab

/-! ### Single target: sampling -/

theorem item_ok {scalars : List ℝ} (h : scalars.length = 5) (k : Nat) (hk : k < 5) :
    item targetVars k scalars = .ok (normCdf (scalars.getD k 0)) := by
  have hv : targetVars = [⟨[1], 0⟩, ⟨[1], 1⟩, ⟨[1], 2⟩, ⟨[1], 3⟩, ⟨[1], 4⟩] := by decide
  obtain ⟨a, b, c, d, e, rfl⟩ : ∃ a b c d e, scalars = [a, b, c, d, e] := by
    match scalars, h with
    | [a, b, c, d, e], _ => exact ⟨a, b, c, d, e, rfl⟩
  have hvk : targetVars[k]? = some ⟨[1], (k : Int)⟩ := by
    rw [hv]
    interval_cases k <;> rfl
  unfold item
  rw [hvk]
  dsimp only
  unfold Var.uniform
  rw [Verif.Consistent.sample_inside _ k _ rfl (by simp [Var.size]; omega)]
  interval_cases k <;> simp [Except.map, Var.size]

theorem drawn_holds (s : Setting) (u : ℝ) (h0 : 0 < u) (h1 : u < 1) (hs : s.Span)
    (hn : ∀ v, s ≠ .array v) (ho : s ≠ .other) : ∃ x, drawn s (.ok u) = .ok x ∧ s.Holds x := by
  have key : ∀ a b : ℝ, a ≤ b → a ≤ a + (b - a) * u ∧ a + (b - a) * u ≤ b := by
    intro a b hab
    constructor <;> nlinarith
  cases s with
  | float x => exact ⟨x, rfl, rfl⟩
  | int n => exact ⟨n, rfl, rfl⟩
  | tuple l =>
    obtain ⟨a, b, rfl, hab⟩ := hs
    exact ⟨_, rfl, a, b, rfl, hab, key a b hab⟩
  | list l =>
    obtain ⟨a, b, rfl, hab⟩ := hs
    exact ⟨_, rfl, a, b, rfl, hab, key a b hab⟩
  | array v => exact absurd rfl (hn v)
  | other => exact absurd rfl ho

/-- A setting that denotes a number or a span of numbers. -/
def Setting.Numeric (s : Setting) : Prop := s ≠ .other ∧ ∀ v, s ≠ .array v

theorem Setting.Distance.span {s : Setting} (h : s.Distance) : s.Span ∧ s.Numeric := by
  cases s with
  | float x => exact ⟨trivial, by simp [Setting.Numeric]⟩
  | int n => exact ⟨trivial, by simp [Setting.Numeric]⟩
  | tuple l =>
    obtain ⟨a, b, hl, -, hab⟩ := h
    exact ⟨⟨a, b, hl, hab⟩, by simp [Setting.Numeric]⟩
  | list l =>
    obtain ⟨a, b, hl, -, hab⟩ := h
    exact ⟨⟨a, b, hl, hab⟩, by simp [Setting.Numeric]⟩
  | array v => exact h.elim
  | other => exact h.elim

theorem norm_spherical (az ze d : ℝ) (hd : 0 ≤ d) :
    norm3 (fun i => fromSpherical az ze i * d) = d := by
  have h := C29_unit az ze
  unfold IsUnitVec at h
  unfold norm3
  have : (fromSpherical az ze 0 * d) ^ 2 + (fromSpherical az ze 1 * d) ^ 2 +
      (fromSpherical az ze 2 * d) ^ 2 = d ^ 2 := by
    rw [mul_pow, mul_pow, mul_pow, ← add_mul, ← add_mul, h, one_mul]
  rw [this, Real.sqrt_sq hd]

/-- C78: a sample of a legal channel holds exactly one path if the target exists: the target is at an
admissible distance from the origin, in an admissible direction, moves radially at an admissible velocity
or at the given velocity vector, and reflects with the configured cross section and some phase of a full
turn. -/
theorem C78_target_partial (c : Single) (hc : c.Legal) (haz : c.azimuth.Numeric) (hze : c.zenith.Numeric)
    (hve : c.velocity ≠ .other) (he : c.present = true) (r : Verif.Consistent.Realization) (tx rx : Dev)
    (scalars : List ℝ) (hr : r.sample tx.pos rx.pos = .ok scalars) (hl : scalars.length = 5) :
    ∃ (d az ze φ : ℝ) (vel : Vec3), (c.realize r).paths tx rx =
        .ok [.target (fun i => fromSpherical az ze i * d) vel c.rcs φ c.attenuate false] ∧
      c.range.Holds d ∧ 0 ≤ d ∧ norm3 (fun i => fromSpherical az ze i * d) = d ∧
      c.azimuth.Holds az ∧ c.zenith.Holds ze ∧ 0 < φ ∧ φ < 2 * Real.pi ∧
      ((∃ v, c.velocity = .array v ∧ vel = v) ∨
        ∃ w, c.velocity.Holds w ∧ vel = fun i => fromSpherical az ze i * w) := by
  obtain ⟨-, hd, -, hazs, hzes, hves, -⟩ := hc
  have hnc := fun x => Verif.Consistent.normCdf_range x
  obtain ⟨d, h1, h1'⟩ := drawn_holds c.range _ (hnc (scalars.getD 0 0)).1 (hnc _).2 hd.span.1
    hd.span.2.2 hd.span.2.1
  obtain ⟨az, h2, h2'⟩ := drawn_holds c.azimuth _ (hnc (scalars.getD 1 0)).1 (hnc _).2 hazs haz.2 haz.1
  obtain ⟨ze, h3, h3'⟩ := drawn_holds c.zenith _ (hnc (scalars.getD 2 0)).1 (hnc _).2 hzes hze.2 hze.1
  have hd0 : 0 ≤ d := by
    cases hrg : c.range with
    | float x => rw [hrg] at hd h1'; exact h1' ▸ hd
    | int n =>
      rw [hrg] at hd h1'
      have : (0 : ℝ) ≤ (n : ℝ) := by exact_mod_cast hd
      exact h1' ▸ this
    | tuple l =>
      rw [hrg] at hd h1'
      obtain ⟨a, b, rfl, h0, -⟩ := hd
      obtain ⟨a', b', h, -, h4, -⟩ := h1'
      cases h
      linarith
    | list l =>
      rw [hrg] at hd h1'
      obtain ⟨a, b, rfl, h0, -⟩ := hd
      obtain ⟨a', b', h, -, h4, -⟩ := h1'
      cases h
      linarith
    | array v => rw [hrg] at hd; exact hd.elim
    | other => rw [hrg] at hd; exact hd.elim
  have h4 : ∃ vel, drawnVelocity c.velocity (fromSpherical az ze)
        (.ok (normCdf (scalars.getD 3 0))) = .ok vel ∧
      ((∃ v, c.velocity = .array v ∧ vel = v) ∨
        ∃ w, c.velocity.Holds w ∧ vel = fun i => fromSpherical az ze i * w) := by
    by_cases ha : ∃ v, c.velocity = .array v
    · obtain ⟨v, hv⟩ := ha
      exact ⟨v, by rw [hv]; rfl, .inl ⟨v, hv, rfl⟩⟩
    · push Not at ha
      obtain ⟨w, hw, hw'⟩ := drawn_holds c.velocity _ (hnc (scalars.getD 3 0)).1 (hnc _).2 hves ha hve
      refine ⟨fun i => fromSpherical az ze i * w, ?_, .inr ⟨w, hw', rfl⟩⟩
      unfold drawnVelocity
      cases hcv : c.velocity with
      | array v => exact absurd hcv (ha v)
      | _ => rw [hcv] at hw; simp only [hw]
  obtain ⟨vel, h4, h4'⟩ := h4
  have hφ := hnc (scalars.getD 4 0)
  have hpi := Real.pi_pos
  refine ⟨d, az, ze, 2 * Real.pi * normCdf (scalars.getD 4 0), vel, ?_, h1', hd0, norm_spherical az ze d hd0,
    h2', h3', by have := hφ.1; positivity, by nlinarith [hφ.2], h4'⟩
  unfold SingleReal.paths Single.realize
  rw [he]
  simp only [if_true, hr, item_ok hl _ (by norm_num : (0 : ℕ) < 5),
    item_ok hl _ (by norm_num : (1 : ℕ) < 5), item_ok hl _ (by norm_num : (2 : ℕ) < 5),
    item_ok hl _ (by norm_num : (3 : ℕ) < 5), item_ok hl _ (by norm_num : (4 : ℕ) < 5), h1, h2, h3, h4]

/-- The example channel, sampled with all random numbers zero. -/
example (tx rx : Dev) : ∃ (d ze φ : ℝ) (vel : Vec3),
    (demoSingle.realize (.static [0, 0, 0, 0, 0])).paths tx rx =
      .ok [.target (fun i => fromSpherical 0 ze i * d) vel 1 φ true false] ∧ 10 ≤ d ∧ d ≤ 20 := by
  obtain ⟨d, az, ze, φ, vel, h, hd, -, -, haz, -, -, -, -⟩ := C78_target_partial demoSingle
    demoSingle_legal (by simp [demoSingle, Setting.Numeric]) (by simp [demoSingle, Setting.Numeric])
    (by simp [demoSingle]) rfl (.static [0, 0, 0, 0, 0]) tx rx [0, 0, 0, 0, 0] rfl rfl
  obtain ⟨a, b, hl, -, h1, h2⟩ := hd
  cases hl
  have haz' : az = 0 := haz
  subst haz'
  exact ⟨d, ze, φ, vel, h, h1, h2⟩

/-- C78: if the target does not exist, there is no path, and whatever is sent comes back as silence. -/
theorem C78_absent (c : Single) (he : c.present = false) (r : Verif.Consistent.Realization) (tx rx : Dev) :
    (c.realize r).paths tx rx = .ok [] ∧ ∀ (fc bw time : ℝ) (x : Sig ℂ), ∃ y,
      (⟨[], c.gain, tx, rx, fc, bw, time⟩ : Sample).propagate x = .ok y ∧ y.len = x.len ∧
        y.streams = rx.numRx ∧ ∀ r m, y.val r m = 0 := by
  refine ⟨by unfold SingleReal.paths Single.realize; rw [he]; rfl, fun fc bw time x => ?_⟩
  refine ⟨⟨rx.numRx, x.len, fun _ _ => 0⟩, ?_, rfl, rfl, fun _ _ => rfl⟩
  unfold Sample.propagate
  simp [velocities, overhead, loop]

/-- C78: a radar at rest at the origin observes a target at twice the time light takes for its range, and a
velocity that is twice the configured one. -/
theorem C78_monostatic_partial (c : Single) (hc : c.Legal) (haz : c.azimuth.Numeric)
    (hze : c.zenith.Numeric) (he : c.present = true) (w : ℝ) (hw : c.velocity = .float w)
    (r : Verif.Consistent.Realization) (dev : Dev) (hp : dev.pos = 0) (hv : dev.vel = 0)
    (scalars : List ℝ) (hr : r.sample dev.pos dev.pos = .ok scalars) (hl : scalars.length = 5)
    (h0 : ∀ x, c.range.Holds x → 0 < x) :
    ∃ (p : Path) (d : ℝ), (c.realize r).paths dev dev = .ok [p] ∧ c.range.Holds d ∧
      p.delay dev dev = 2 * d / light ∧ p.velocity dev dev = .ok (2 * w) := by
  obtain ⟨d, az, ze, φ, vel, h, hd, hd0, hn, -, -, -, -, hvel⟩ := C78_target_partial c hc haz hze
    (by rw [hw]; simp) he r dev dev scalars hr hl
  have hdp := h0 d hd
  refine ⟨_, d, h, hd, ?_, ?_⟩
  · simp only [Path.delay]
    rw [hp, sub_zero, norm3_sub_comm, sub_zero, hn]
    ring
  · have hpos : (fun i => fromSpherical az ze i * d) ≠ dev.pos := by
      intro h'
      rw [h', hp] at hn
      have : norm3 0 = 0 := by simp [norm3]
      rw [this] at hn
      exact hdp.ne hn
    rw [velocity_target ⟨hpos, hpos⟩]
    rcases hvel with ⟨v, hva, -⟩ | ⟨w', hw', rfl⟩
    · rw [hw] at hva
      cases hva
    · rw [hw] at hw'
      have hww : w' = w := hw'
      subst hww
      congr 1
      rw [hp, hv, sub_zero, sub_zero, zero_sub, zero_sub]
      have hneg : norm3 (-fun i => fromSpherical az ze i * d) = d := by
        rw [← zero_sub, norm3_sub_comm, sub_zero, hn]
      rw [hn, hneg]
      have hu := C29_unit az ze
      unfold IsUnitVec at hu
      simp only [dot3, scale, Pi.neg_apply]
      have hsum : fromSpherical az ze 0 * d / d * (fromSpherical az ze 0 * w') +
          fromSpherical az ze 1 * d / d * (fromSpherical az ze 1 * w') +
          fromSpherical az ze 2 * d / d * (fromSpherical az ze 2 * w') = w' := by
        rw [mul_div_cancel_right₀ _ hdp.ne', mul_div_cancel_right₀ _ hdp.ne',
          mul_div_cancel_right₀ _ hdp.ne']
        linear_combination w' * hu
      linear_combination 2 * hsum

/-- C78, false of the code: `target_range` is documented as the distance of target and radar sensor, but the
target is placed relative to the origin of the global coordinate system: for every range there is a
position of the radar which is at twice that distance from the target, and one colliding with it. -/
theorem C78_range_fails (c : Single) (hc : c.Legal) (haz : c.azimuth.Numeric) (hze : c.zenith.Numeric)
    (hve : c.velocity ≠ .other) (he : c.present = true) (R : ℝ) (hR : c.range = .float R) (hR0 : 0 < R)
    (scalars : List ℝ) (hl : scalars.length = 5) :
    ∃ (away near : Vec3), ∀ dev : Dev, ∃ p : Path,
      (c.realize (.static scalars)).paths dev dev = .ok [p] ∧
      (dev.pos = away → p.delay dev dev = 2 * (2 * R) / light) ∧
      (dev.pos = near → p.delay dev dev = 0 ∧ p.velocity dev dev = .error .value) := by
  obtain ⟨d, az, ze, φ, vel, h, hd, hd0, hn, -, -, -, -, -⟩ := C78_target_partial c hc haz hze hve he
    (.static scalars) ⟨0, 0, 0, 0, 0, fun _ _ _ _ _ => 0⟩ ⟨0, 0, 0, 0, 0, fun _ _ _ _ _ => 0⟩
    scalars rfl hl
  have hdR : d = R := by rw [hR] at hd; exact hd
  refine ⟨-fun i => fromSpherical az ze i * d, fun i => fromSpherical az ze i * d, fun dev =>
    ⟨.target (fun i => fromSpherical az ze i * d) vel c.rcs φ c.attenuate false, h, fun hp => ?_,
      fun hp => ⟨?_, ?_⟩⟩⟩
  · simp only [Path.delay]
    rw [hp, norm3_sub_comm (-_)]
    have h2 : (fun i => fromSpherical az ze i * d) - (-fun i => fromSpherical az ze i * d) =
        fun i => fromSpherical az ze i * (2 * d) := by
      funext i
      simp
      ring
    rw [h2, norm_spherical az ze (2 * d) (by linarith), hdR]
    ring
  · simp only [Path.delay]
    rw [hp]
    simp [norm3]
  · exact velocity_error fun h' => h'.1 hp.symm

example : ∃ (away near : Vec3), ∀ dev : Dev, ∃ p : Path,
    (({ demoSingle with range := .float 10 } : Single).realize (.static [0, 0, 0, 0, 0])).paths dev dev =
      .ok [p] ∧ (dev.pos = away → p.delay dev dev = 2 * (2 * 10) / light) ∧
      (dev.pos = near → p.delay dev dev = 0 ∧ p.velocity dev dev = .error .value) :=
  C78_range_fails { demoSingle with range := .float 10 }
    ⟨zero_le_one, by norm_num [Setting.Distance], zero_le_one, trivial, ⟨0, 1, rfl, zero_le_one⟩,
      trivial, fun _ h => by cases h⟩
    (by simp [demoSingle, Setting.Numeric]) (by simp [demoSingle, Setting.Numeric])
    (by simp [demoSingle]) rfl 10 rfl (by norm_num) [0, 0, 0, 0, 0] rfl

/-! ### Single target: storing and restoring -/

/-- Floats and tuples. -/
def Setting.Stored (s : Setting) : Prop := (∃ x, s = .float x) ∨ ∃ a b, s = .tuple [a, b]

theorem range_roundtrip {s : Setting} (h : s.Stored) (d : Option Setting) :
    ∃ r, serializeRange (some s) = .ok r ∧ deserializeRange r d = .ok s := by
  rcases h with ⟨x, rfl⟩ | ⟨a, b, rfl⟩
  · exact ⟨.scalar x, rfl, rfl⟩
  · exact ⟨.pair a b, rfl, rfl⟩

/-- C78: a channel configured by floats and tuples, with a velocity that is a float, a tuple or a vector,
is restored as it was.  Missing: integers and lists (`C78_restore_fails`). -/
theorem C78_restore_partial (c : Single) (hc : c.Legal) (h1 : c.range.Stored) (h2 : c.azimuth.Stored)
    (h3 : c.zenith.Stored) (h4 : c.velocity.Stored ∨ ∃ v, c.velocity = .array v) :
    ∃ p, c.serialize = .ok p ∧ Single.deserialize p = .ok c := by
  obtain ⟨r, hr, hr'⟩ := range_roundtrip h1 none
  obtain ⟨az, ha, ha'⟩ := range_roundtrip h2 (some (.float 0))
  obtain ⟨ze, hz, hz'⟩ := range_roundtrip h3 (some (.float 0))
  have hv : ∃ v, serializeVelocity c.velocity = .ok v ∧ channelVelocity v = .ok c.velocity := by
    rcases h4 with (⟨x, h⟩ | ⟨a, b, h⟩) | ⟨v, h⟩
    · rw [h]; exact ⟨_, rfl, rfl⟩
    · rw [h]; exact ⟨_, rfl, rfl⟩
    · rw [h]
      refine ⟨_, rfl, ?_⟩
      simp only [channelVelocity, if_true]
      congr 2
      funext i
      fin_cases i <;> rfl
  obtain ⟨v, hv, hv'⟩ := hv
  refine ⟨⟨c.gain, c.seed, c.attenuate, r, az, ze, c.rcs, c.present, v, c.distance⟩, ?_, ?_⟩
  · unfold Single.serialize
    rw [hr, ha, hz, hv]
  · unfold Single.deserialize
    simp only [hv', hr', ha', hz']
    exact (C78_construct c).1 hc

/-- C78, false of the code: ranges and angles given as integers or lists, which the setters accept, cannot be
stored; an integer velocity can be stored but not restored. -/
theorem C78_restore_fails (c : Single) :
    (∀ n : ℤ, c.range = .int n → c.serialize = .error .value) ∧
    (∀ l : List ℝ, c.range = .list l → c.serialize = .error .value) ∧
    (∀ (n : ℤ) (p : SingleRecord), c.velocity = .int n → c.serialize = .ok p →
      Single.deserialize p = .error .type) := by
  refine ⟨fun n h => ?_, fun l h => ?_, fun n p h hp => ?_⟩
  · unfold Single.serialize; rw [h]; rfl
  · unfold Single.serialize; rw [h]; rfl
  · have hv : p.velocity = ([(n : ℝ)], false) := by
      unfold Single.serialize at hp
      rw [h] at hp
      simp only [serializeVelocity] at hp
      split at hp
      · cases hp
      · split at hp
        · cases hp
        · split at hp
          · cases hp
          · cases hp; rfl
    unfold Single.deserialize
    rw [hv]
    rfl

/-- The default velocity given as the integer zero. -/
example : ∃ p, ({ demoSingle with zenith := .float 0, velocity := .int 0 } : Single).Legal ∧
    ({ demoSingle with zenith := .float 0, velocity := .int 0 } : Single).serialize = .ok p ∧
    Single.deserialize p = .error .type :=
  ⟨_, ⟨zero_le_one, ⟨10, 20, rfl, by norm_num, by norm_num⟩, zero_le_one, trivial, trivial, trivial,
    fun _ h => by cases h⟩, rfl,
    (C78_restore_fails { demoSingle with zenith := .float 0, velocity := .int 0 }).2.2 0 _ rfl rfl⟩

/-- C78: a realization of a target configured by floats and tuples is restored as it was.  Missing: absent
targets and velocity vectors (`C78_realization_fails`). -/
theorem C78_realization_partial (r : SingleReal) (s : Setting) (hs : r.range = some s) (h1 : s.Stored)
    (h2 : r.azimuth.Stored) (h3 : r.zenith.Stored) (h4 : r.velocity.Stored) : r.restore = .ok r := by
  obtain ⟨a, ha, ha'⟩ := range_roundtrip h1 none
  obtain ⟨az, haz, haz'⟩ := range_roundtrip h2 none
  obtain ⟨ze, hze, hze'⟩ := range_roundtrip h3 none
  have hv : ∃ v, serializeVelocity r.velocity = .ok v ∧ realizationVelocity v = .ok r.velocity := by
    rcases h4 with ⟨x, h⟩ | ⟨a, b, h⟩ <;> rw [h] <;> exact ⟨_, rfl, rfl⟩
  obtain ⟨v, hv, hv'⟩ := hv
  unfold SingleReal.restore
  simp only [hs, ha, haz, hze, hv, hv', ha', haz', hze']
  congr 1
  cases r
  simp only at hs
  rw [hs]

/-- C78, false of the code: the realization of an absent target is stored without its range and cannot be
restored; a velocity vector comes back as the span between its first two components, so a restored target
flies in another direction. -/
theorem C78_realization_fails (r : SingleReal) (h2 : r.azimuth.Stored) (h3 : r.zenith.Stored) :
    (r.range = none → r.velocity.Stored → r.restore = .error .runtime) ∧
    (∀ (s : Setting) (v : Vec3), r.range = some s → s.Stored → r.velocity = .array v →
      r.restore = .ok { r with velocity := .tuple [v 0, v 1] }) := by
  obtain ⟨az, haz, haz'⟩ := range_roundtrip h2 none
  obtain ⟨ze, hze, hze'⟩ := range_roundtrip h3 none
  refine ⟨fun hn hv => ?_, fun s v hs h1 hv => ?_⟩
  · have hv : ∃ v, serializeVelocity r.velocity = .ok v ∧ realizationVelocity v = .ok r.velocity := by
      rcases hv with ⟨x, h⟩ | ⟨a, b, h⟩ <;> rw [h] <;> exact ⟨_, rfl, rfl⟩
    obtain ⟨v, hv, hv'⟩ := hv
    unfold SingleReal.restore
    have hm : serializeRange none = .ok .missing := rfl
    simp only [hn, haz, hze, hv, hv', hm, deserializeRange]
  · obtain ⟨a, ha, ha'⟩ := range_roundtrip h1 none
    unfold SingleReal.restore
    simp only [hs, ha, haz, hze, hv, serializeVelocity, realizationVelocity, ha', haz', hze']

/-- A target climbing at five metres per second comes back at rest: the span from zero to zero. -/
example : (({ demoSingle with zenith := .float 0, velocity := .array ![0, 0, 5] } : Single).realize
      (.static [0, 0, 0, 0, 0])).restore =
    .ok (({ demoSingle with zenith := .float 0, velocity := .tuple [0, 0] } : Single).realize
      (.static [0, 0, 0, 0, 0])) :=
  (C78_realization_fails (({ demoSingle with zenith := .float 0, velocity := .array ![0, 0, 5] } :
    Single).realize (.static [0, 0, 0, 0, 0])) (.inl ⟨0, rfl⟩) (.inl ⟨0, rfl⟩)).2 (.tuple [10, 20])
    ![0, 0, 5] rfl (.inr ⟨10, 20, rfl⟩) rfl

end Verif.RadarChannel
