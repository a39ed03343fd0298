import Verif.Channel.RadarTargets

/-!
# C78: radar channels and their targets

`hermespy/channel/radar/multi.py`: targets of a channel over its life, the paths its realizations generate,
collisions and the directions handed to cross section models.
-/

namespace Verif.RadarChannel

open Verif Verif.Core Finset
open Verif.Consistent (Var normCdf)
open Verif.Channel.State (Sig Csi)

/-! ### Multiple targets: model -/

/-- A `RadarTarget`: virtual and physical ones sample a trajectory and a cross section model alike,
channel/radar/multi.py 220-228 and 301-309.  The trajectory's sample at a time is its pose and velocity. -/
structure Target where
  cross : Vec3 → Vec3 → ℝ
  pose : ℝ → Mat4
  vel : ℝ → Vec3
  static : Bool

/-- `FixedCrossSection`, channel/radar/multi.py 156-165. -/
noncomputable def fixed (σ : ℝ) : Vec3 → Vec3 → ℝ := fun _ _ => σ

/-- A `MultiTargetRadarChannelRealization`, channel/radar/multi.py 350-358, with the targets its set holds at
the time of sampling in the order the set is iterated in. -/
structure MultiReal where
  consistent : Verif.Consistent.Realization
  vars : List Var
  targets : List Target
  interference : Bool
  attenuate : Bool
  gain : ℝ

/-- The statements by which the constructor creates its generator and variable, channel/radar/multi.py
509-510. -/
def multiCreation : List Verif.Consistent.Op := [.newGen, .newVar none 0, .add 0 0]

/-- The phase variable. -/
def multiVars : List Var := (Verif.Consistent.run multiCreation).vars

open Classical in
/-- `__sample_target`, channel/radar/multi.py 380-424. -/
noncomputable def MultiReal.sampleTarget (r : MultiReal) (t : Target) (time : ℝ) (tx rx : Dev) :
    Except PyErr Path :=
  match invert (t.pose time) with
  | .error e => .error e
  | .ok forwards =>
    if translation forwards = tx.pos then .error .runtime
    else if translation forwards = rx.pos then .error .runtime
    else match fromCartesian (rotateDirection (t.pose time) (translation forwards - tx.pos)) true with
    | .error e => .error e
    | .ok impinging =>
      match fromCartesian (rotateDirection (t.pose time) (rx.pos - translation forwards)) true with
      | .error e => .error e
      | .ok emerging =>
        match r.consistent.sample (translation forwards) rx.pos with
        | .error e => .error e
        | .ok scalars =>
          match item r.vars 0 scalars with
          | .error e => .error e
          | .ok u => .ok (.target (translation (t.pose time)) (t.vel time) (t.cross impinging emerging)
              (2 * Real.pi * u) r.attenuate t.static)

/-- The list comprehension of channel/radar/multi.py 429: the first exception ends it. -/
noncomputable def MultiReal.sampleTargets (r : MultiReal) (time : ℝ) (tx rx : Dev) :
    List Target → Except PyErr (List Path)
  | [] => .ok []
  | t :: ts =>
    match r.sampleTarget t time tx rx with
    | .error e => .error e
    | .ok p =>
      match r.sampleTargets time tx rx ts with
      | .error e => .error e
      | .ok ps => .ok (p :: ps)

open Classical in
/-- `_generate_paths`, channel/radar/multi.py 426-434. -/
noncomputable def MultiReal.paths (r : MultiReal) (time : ℝ) (tx rx : Dev) : Except PyErr (List Path) :=
  match r.sampleTargets time tx rx r.targets with
  | .error e => .error e
  | .ok ps =>
    .ok (if r.interference = true ∧ tx.pos ≠ rx.pos then ps ++ [.interference r.attenuate true] else ps)

/-! ### Multiple targets: membership -/

/-- Objects of a program: target objects have identities, sets of targets are mutable objects of which
channel and realizations hold references.  Fields: identities in use, contents of the sets, the set of each
channel, the set of each realization. -/
structure World where
  next : Nat
  sets : List (List Nat)
  chans : List Nat
  reals : List Nat

/-- What a program may do: create a channel (channel/radar/multi.py 507), create a target object, add a
target to a channel (545-546), make a moveable a target of a channel (572-575), realize a channel
(577-586). -/
inductive TargetOp
  | channel
  | target
  | add (c t : Nat)
  | make (c : Nat)
  | realize (c : Nat)

/-- `set.add` behind the check of channel/radar/multi.py 545-546. -/
def insertTarget (t : Nat) (s : List Nat) : List Nat := if t ∈ s then s else s ++ [t]

/-- The set referred to. -/
def World.content (w : World) (ref : Nat) : List Nat := w.sets.getD ref []

/-- `add_target`, channel/radar/multi.py 545-546. -/
def World.addTarget (w : World) (c t : Nat) : World :=
  match w.chans[c]? with
  | none => w
  | some ref => { w with sets := w.sets.set ref (insertTarget t (w.content ref)) }

/-- One statement; statements about channels that do not exist have no effect. -/
def World.step (w : World) : TargetOp → World
  | .channel => { w with sets := w.sets ++ [[]], chans := w.chans ++ [w.sets.length] }
  | .target => { w with next := w.next + 1 }
  | .add c t => if t < w.next then w.addTarget c t else w
  | .make c => match w.chans[c]? with
    | none => w
    | some _ => ({ w with next := w.next + 1 }).addTarget c w.next
  | .realize c => match w.chans[c]? with
    | none => w
    | some ref => { w with reals := w.reals ++ [ref] }

/-- A program. -/
def World.exec (ops : List TargetOp) : World := ops.foldl World.step ⟨0, [], [], []⟩

/-- Targets of a channel. -/
def World.targets (w : World) (c : Nat) : List Nat :=
  match w.chans[c]? with
  | none => []
  | some ref => w.content ref

/-- Targets of a realization. -/
def World.realTargets (w : World) (k : Nat) : List Nat :=
  match w.reals[k]? with
  | none => []
  | some ref => w.content ref

/-- The target a statement puts into a channel, in the state it is executed in. -/
def TargetOp.puts (w : World) (c : Nat) : TargetOp → Option Nat
  | .add c' t => if c' = c ∧ c < w.chans.length ∧ t < w.next then some t else none
  | .make c' => if c' = c ∧ c < w.chans.length then some w.next else none
  | _ => none

/-- The targets a program puts into a channel. -/
def put (c : Nat) : World → List TargetOp → List Nat
  | _, [] => []
  | w, op :: ops => (op.puts w c).toList ++ put c (w.step op) ops

/-- Every channel has a set of its own. -/
structure World.Inv (w : World) : Prop where
  chan : w.chans = List.range w.sets.length
  real : ∀ ref ∈ w.reals, ref < w.sets.length
  nodup : ∀ s ∈ w.sets, s.Nodup

theorem insertTarget_nodup {t : Nat} {s : List Nat} (h : s.Nodup) : (insertTarget t s).Nodup := by
  unfold insertTarget
  split
  · exact h
  · rename_i hn
    rw [List.nodup_append]
    refine ⟨h, by simp, ?_⟩
    intro a ha b hb
    rw [List.mem_singleton] at hb
    rintro rfl
    exact hn (hb ▸ ha)

theorem mem_insertTarget {t u : Nat} {s : List Nat} : u ∈ insertTarget t s ↔ u ∈ s ∨ u = t := by
  unfold insertTarget
  split
  · rename_i h
    constructor
    · exact .inl
    · rintro (h' | rfl)
      · exact h'
      · exact h
  · simp

theorem World.Inv.chan_get {w : World} (h : w.Inv) (c : Nat) :
    w.chans[c]? = if c < w.sets.length then some c else none := by
  rw [h.chan]
  split
  · rename_i hc
    rw [List.getElem?_range hc]
  · rename_i hc
    rw [List.getElem?_eq_none (by rw [List.length_range]; omega)]

theorem World.Inv.content_nodup {w : World} (h : w.Inv) (ref : Nat) : (w.content ref).Nodup := by
  unfold World.content
  rw [List.getD_eq_getElem?_getD]
  cases hg : w.sets[ref]? with
  | none => simp
  | some s => exact h.nodup s (List.mem_of_getElem? hg)

theorem World.Inv.addTarget {w : World} (h : w.Inv) (c t : Nat) : (w.addTarget c t).Inv := by
  unfold World.addTarget
  split
  · exact h
  · refine ⟨by rw [List.length_set]; exact h.chan, by rw [List.length_set]; exact h.real, ?_⟩
    intro s hs
    rcases List.mem_or_eq_of_mem_set hs with hs | rfl
    · exact h.nodup s hs
    · exact insertTarget_nodup (h.content_nodup _)

theorem World.Inv.step {w : World} (h : w.Inv) (op : TargetOp) : (w.step op).Inv := by
  cases op with
  | channel =>
    refine ⟨?_, ?_, ?_⟩
    · simp only [World.step, List.length_append, List.length_singleton, List.range_succ, h.chan]
    · intro ref hr
      have := h.real ref hr
      simp only [World.step, List.length_append, List.length_singleton]
      omega
    · intro s hs
      rcases List.mem_append.mp hs with hs | hs
      · exact h.nodup s hs
      · rw [List.mem_singleton.mp hs]
        exact List.nodup_nil
  | target => exact ⟨h.chan, h.real, h.nodup⟩
  | add c t =>
    simp only [World.step]
    split
    · exact h.addTarget c t
    · exact h
  | make c =>
    simp only [World.step]
    split
    · exact h
    · exact World.Inv.addTarget (w := { w with next := w.next + 1 }) ⟨h.chan, h.real, h.nodup⟩ c w.next
  | realize c =>
    simp only [World.step]
    split
    · exact h
    · rename_i ref hr
      refine ⟨h.chan, ?_, h.nodup⟩
      intro r hm
      rcases List.mem_append.mp hm with hm | hm
      · exact h.real r hm
      · rw [List.mem_singleton.mp hm]
        rw [h.chan_get] at hr
        split at hr
        · cases hr
          assumption
        · cases hr

theorem World.Inv.targets_eq {w : World} (h : w.Inv) (c : Nat) : w.targets c = w.content c := by
  unfold World.targets
  rw [h.chan_get]
  by_cases hc : c < w.sets.length
  · rw [if_pos hc]
  · rw [if_neg hc]
    unfold World.content
    rw [List.getD_eq_getElem?_getD, List.getElem?_eq_none (by omega)]
    rfl

theorem addTarget_content {w : World} (h : w.Inv) (c t d : Nat) :
    (w.addTarget c t).content d =
      if c = d ∧ c < w.sets.length then insertTarget t (w.content d) else w.content d := by
  unfold World.addTarget
  rw [h.chan_get]
  by_cases hc : c < w.sets.length
  · rw [if_pos hc]
    dsimp only
    unfold World.content
    rw [List.getD_eq_getElem?_getD, List.getElem?_set]
    by_cases hd : c = d
    · subst hd
      rw [if_pos rfl, if_pos hc, if_pos ⟨rfl, hc⟩]
      rfl
    · rw [if_neg hd, if_neg (fun h => hd h.1), List.getD_eq_getElem?_getD]
  · rw [if_neg hc, if_neg (fun h => hc h.2)]

theorem step_content {w : World} (h : w.Inv) (op : TargetOp) (c : Nat) :
    ∀ u, u ∈ (w.step op).content c ↔ u ∈ w.content c ∨ op.puts w c = some u := by
  have hl : w.chans.length = w.sets.length := by rw [h.chan, List.length_range]
  intro u
  cases op with
  | channel =>
    have : (w.step .channel).content c = w.content c := by
      unfold World.content World.step
      rw [List.getD_eq_getElem?_getD, List.getD_eq_getElem?_getD]
      by_cases hc : c < w.sets.length
      · rw [List.getElem?_append_left hc]
      · rw [List.getElem?_append_right (by omega), List.getElem?_eq_none (by omega : w.sets.length ≤ c)]
        cases hk : c - w.sets.length with
        | zero => rfl
        | succ k => rfl
    rw [this]
    simp [TargetOp.puts]
  | target => simp [TargetOp.puts, World.step, World.content]
  | add c' t =>
    simp only [World.step, TargetOp.puts, hl]
    by_cases ht : t < w.next
    · rw [if_pos ht, addTarget_content h]
      by_cases hc : c' = c ∧ c' < w.sets.length
      · rw [if_pos hc, if_pos ⟨hc.1, hc.1 ▸ hc.2, ht⟩, mem_insertTarget]
        simp [eq_comm]
      · rw [if_neg hc, if_neg (fun h : c' = c ∧ c < w.sets.length ∧ t < w.next =>
          hc ⟨h.1, h.1 ▸ h.2.1⟩)]
        simp
    · rw [if_neg ht, if_neg (fun h => ht h.2.2)]
      simp
  | make c' =>
    simp only [World.step, TargetOp.puts, hl]
    rw [h.chan_get]
    by_cases hc' : c' < w.sets.length
    · rw [if_pos hc']
      dsimp only
      have h' : World.Inv { w with next := w.next + 1 } := ⟨h.chan, h.real, h.nodup⟩
      rw [addTarget_content h']
      by_cases hc : c' = c
      · subst hc
        rw [if_pos ⟨rfl, hc'⟩, if_pos ⟨rfl, hc'⟩, mem_insertTarget]
        simp [eq_comm, World.content]
      · rw [if_neg (fun h => hc h.1), if_neg (fun h => hc h.1)]
        simp [World.content]
    · rw [if_neg hc', if_neg (fun h : c' = c ∧ c < w.sets.length => hc' (h.1 ▸ h.2))]
      simp
  | realize c' =>
    have : (w.step (.realize c')).content c = w.content c := by
      simp only [World.step]
      split <;> rfl
    rw [this]
    simp [TargetOp.puts]

/-- C78: whatever a program does, a channel's targets are exactly those that were added to or made for this
channel, each of them once. -/
theorem C78_members (ops : List TargetOp) (c : Nat) : ((World.exec ops).targets c).Nodup ∧
    ∀ t, t ∈ (World.exec ops).targets c ↔ t ∈ put c ⟨0, [], [], []⟩ ops := by
  have key : ∀ (ops : List TargetOp) (w : World), w.Inv →
      (ops.foldl World.step w).Inv ∧ ∀ t, t ∈ (ops.foldl World.step w).content c ↔
        t ∈ w.content c ∨ t ∈ put c w ops := by
    intro ops
    induction ops with
    | nil => intro w h; exact ⟨h, fun t => by simp [put]⟩
    | cons op ops ih =>
      intro w h
      obtain ⟨h1, h2⟩ := ih (w.step op) (h.step op)
      refine ⟨h1, fun t => ?_⟩
      rw [List.foldl_cons, h2 t, step_content h]
      simp only [put, List.mem_append, Option.mem_toList]
      tauto
  have h0 : World.Inv ⟨0, [], [], []⟩ := ⟨rfl, by simp, by simp⟩
  obtain ⟨h1, h2⟩ := key ops _ h0
  change (World.exec ops).Inv at h1
  refine ⟨by rw [h1.targets_eq]; exact h1.content_nodup c, fun t => ?_⟩
  rw [h1.targets_eq]
  refine (h2 t).trans ?_
  simp [World.content]

example : (World.exec [.channel, .channel, .target, .add 0 0, .make 1, .add 0 0, .make 0]).targets 0 =
    [0, 2] := by decide

/-- C78, false of the code: realizations share the set of targets of their channel.  Whatever program has
been executed, a target made for the channel after it was realized appears in the existing realization. -/
theorem C78_shared_fails (ops : List TargetOp) (c : Nat) (hc : c < (World.exec ops).chans.length) :
    ∃ k t, t ∉ (World.exec (ops ++ [.realize c])).realTargets k ∧
      t ∈ (World.exec (ops ++ [.realize c, .target, .add c t])).realTargets k := by
  have hall : ∀ (ops : List TargetOp) (w : World), w.Inv → (∀ s ∈ w.sets, ∀ t ∈ s, t < w.next) →
      (ops.foldl World.step w).Inv ∧
        ∀ s ∈ (ops.foldl World.step w).sets, ∀ t ∈ s, t < (ops.foldl World.step w).next := by
    intro ops
    induction ops with
    | nil => intro w h h'; exact ⟨h, h'⟩
    | cons op ops ih =>
      intro w h h'
      refine ih (w.step op) (h.step op) ?_
      have hadd : ∀ (w : World) (c t : Nat), (∀ s ∈ w.sets, ∀ t ∈ s, t < w.next) → t < w.next →
          ∀ s ∈ (w.addTarget c t).sets, ∀ t ∈ s, t < w.next := by
        intro w c t h' ht s hs u hu
        unfold World.addTarget at hs
        split at hs
        · exact h' s hs u hu
        · rcases List.mem_or_eq_of_mem_set hs with hs | rfl
          · exact h' s hs u hu
          · rcases mem_insertTarget.mp hu with hu | rfl
            · unfold World.content at hu
              rw [List.getD_eq_getElem?_getD] at hu
              rename_i ref _ _
              cases hg : w.sets[ref]? with
              | none => rw [hg] at hu; simp at hu
              | some s' =>
                rw [hg] at hu
                exact h' s' (List.mem_of_getElem? hg) u hu
            · exact ht
      have hnext : ∀ (w : World) (c t : Nat), (w.addTarget c t).next = w.next := by
        intro w c t
        unfold World.addTarget
        split <;> rfl
      cases op with
      | channel =>
        intro s hs t ht
        rcases List.mem_append.mp hs with hs | hs
        · exact h' s hs t ht
        · rw [List.mem_singleton.mp hs] at ht
          simp at ht
      | target => exact fun s hs t ht => Nat.lt_succ_of_lt (h' s hs t ht)
      | add c t =>
        simp only [World.step]
        split
        · rename_i ht
          rw [hnext]
          exact hadd w c t h' ht
        · exact h'
      | make c =>
        simp only [World.step]
        split
        · exact h'
        · rw [hnext]
          exact hadd { w with next := w.next + 1 } c w.next
            (fun s hs t ht => Nat.lt_succ_of_lt (h' s hs t ht)) (Nat.lt_succ_self _)
      | realize c =>
        simp only [World.step]
        split <;> exact h'
  obtain ⟨hi, hb⟩ := hall ops _ (⟨rfl, by simp, by simp⟩ : World.Inv ⟨0, [], [], []⟩) (by simp)
  change (World.exec ops).Inv at hi
  change ∀ s ∈ (World.exec ops).sets, ∀ t ∈ s, t < (World.exec ops).next at hb
  generalize hw : World.exec ops = w at hi hb hc
  have hl : c < w.sets.length := by rwa [hi.chan, List.length_range] at hc
  have hstep : w.step (.realize c) = { w with reals := w.reals ++ [c] } := by
    simp only [World.step]
    rw [hi.chan_get, if_pos hl]
  have hx : ∀ l, World.exec (ops ++ l) = l.foldl World.step w := by
    intro l
    unfold World.exec at hw ⊢
    rw [List.foldl_append, hw]
  refine ⟨w.reals.length, w.next, ?_, ?_⟩
  · rw [hx, List.foldl_cons, List.foldl_nil, hstep]
    unfold World.realTargets
    simp only [List.getElem?_append_right (le_refl _), Nat.sub_self, List.getElem?_cons_zero]
    intro hm
    unfold World.content at hm
    rw [List.getD_eq_getElem?_getD] at hm
    cases hg : w.sets[c]? with
    | none => rw [hg] at hm; simp at hm
    | some s =>
      rw [hg] at hm
      exact lt_irrefl _ (hb s (List.mem_of_getElem? hg) _ hm)
  · rw [hx, List.foldl_cons, List.foldl_cons, List.foldl_cons, List.foldl_nil, hstep]
    have h' : World.Inv ({ w with reals := w.reals ++ [c] } : World) := by
      rw [← hstep]; exact hi.step _
    have h'' : World.Inv ({ w with reals := w.reals ++ [c], next := w.next + 1 } : World) :=
      ⟨h'.chan, h'.real, h'.nodup⟩
    have hs2 : ({ w with reals := w.reals ++ [c] } : World).step .target =
        { w with reals := w.reals ++ [c], next := w.next + 1 } := rfl
    have hs3 : ({ w with reals := w.reals ++ [c], next := w.next + 1 } : World).step (.add c w.next) =
        ({ w with reals := w.reals ++ [c], next := w.next + 1 } : World).addTarget c w.next :=
      if_pos (Nat.lt_succ_self _)
    rw [hs2, hs3]
    have hr : (({ w with reals := w.reals ++ [c], next := w.next + 1 } : World).addTarget c w.next).reals =
        w.reals ++ [c] := by
      unfold World.addTarget
      split <;> rfl
    unfold World.realTargets
    rw [hr, List.getElem?_append_right (le_refl _), Nat.sub_self]
    simp only [List.getElem?_cons_zero]
    rw [addTarget_content h'', if_pos ⟨rfl, hl⟩, mem_insertTarget]
    exact .inr rfl

example : (World.exec [.channel, .make 0, .realize 0]).realTargets 0 = [0] ∧
    (World.exec [.channel, .make 0, .realize 0, .make 0]).realTargets 0 = [0, 1] := by decide

/-! ### Multiple targets: sampling -/

/-- What the code takes for the position of a target: the translation of the inverted pose. -/
def mirrored (R : Mat3) (p : Vec3) : Vec3 := -(R.transpose.mulVec p)

theorem inverse_translation (R : Mat3) (hR : IsRotation R) (p : Vec3) :
    ∃ U, invert (assemble R p) = .ok U ∧ translation U = mirrored R p := by
  have hd : (assemble R p).det = 1 := by rw [det_assemble, hR.2.2]
  have hmul : assemble R.transpose (mirrored R p) * assemble R p = 1 := by
    have h := hR.2.1
    have he : ∀ i j, (R.transpose * R) i j = (1 : Mat3) i j := fun i j => by rw [h]
    simp only [Matrix.mul_apply, Fin.sum_univ_three, Matrix.transpose_apply] at he
    ext i j
    have h00 := he 0 0
    have h01 := he 0 1
    have h02 := he 0 2
    have h10 := he 1 0
    have h11 := he 1 1
    have h12 := he 1 2
    have h20 := he 2 0
    have h21 := he 2 1
    have h22 := he 2 2
    fin_cases i <;> fin_cases j <;>
      simp [assemble, Matrix.mul_apply, Fin.sum_univ_four, mirrored, Matrix.mulVec, dotProduct,
        Fin.sum_univ_three] at * <;> linarith
  refine ⟨(assemble R p)⁻¹, by rw [invert, if_neg (by rw [hd]; exact one_ne_zero)], ?_⟩
  rw [Matrix.inv_eq_left_inv hmul]
  funext i
  fin_cases i <;> simp [translation, assemble]

theorem translation_assemble (R : Mat3) (p : Vec3) : translation (assemble R p) = p := by
  funext i
  fin_cases i <;> simp [translation, assemble]

theorem rotate_ne_zero {R : Mat3} (hR : IsRotation R) (p : Vec3) {v : Vec3} (h : v ≠ 0) :
    rotateDirection (assemble R p) v ≠ 0 := by
  intro h0
  apply h
  rw [rotateDirection, rot_assemble] at h0
  have : (R.transpose * R).mulVec v = 0 := by
    rw [← Matrix.mulVec_mulVec, h0, Matrix.mulVec_zero]
  rwa [hR.2.1, Matrix.one_mulVec] at this

/-- The direction the code hands to a cross section model: rotated by the pose and normalised. -/
noncomputable def handed (R : Mat3) (v : Vec3) : Vec3 := scale (R.mulVec v) (norm3 (R.mulVec v))

theorem item_multi (x : ℝ) : item multiVars 0 [x] = .ok (normCdf x) := by
  have hv : multiVars = [⟨[1], 0⟩] := by decide
  unfold item
  rw [hv]
  simp only [List.getElem?_cons_zero]
  unfold Var.uniform
  rw [Verif.Consistent.sample_inside _ 0 _ rfl (by simp [Var.size])]
  simp [Except.map, Var.size]

theorem sampleTarget_value (r : MultiReal) (hv : r.vars = multiVars) (t : Target) (time : ℝ) (tx rx : Dev)
    (R : Mat3) (hR : IsRotation R) (p : Vec3) (hp : t.pose time = assemble R p)
    (h1 : tx.pos ≠ mirrored R p) (h2 : rx.pos ≠ mirrored R p) (x : ℝ)
    (hs : r.consistent.sample (mirrored R p) rx.pos = .ok [x]) :
    r.sampleTarget t time tx rx = .ok (.target p (t.vel time)
      (t.cross (handed R (mirrored R p - tx.pos)) (handed R (rx.pos - mirrored R p)))
      (2 * Real.pi * normCdf x) r.attenuate t.static) := by
  obtain ⟨U, hU, hT⟩ := inverse_translation R hR p
  unfold MultiReal.sampleTarget
  rw [hp, hU]
  simp only [hT]
  rw [if_neg (Ne.symm h1), if_neg (Ne.symm h2),
    fromCartesian_ok (rotate_ne_zero hR p (sub_ne_zero.mpr (Ne.symm h1))),
    fromCartesian_ok (rotate_ne_zero hR p (sub_ne_zero.mpr h2))]
  simp only [hs, hv, item_multi, translation_assemble]
  simp only [rotateDirection, rot_assemble, handed]

/-- The path a sample of a target with fixed cross section is expected to be. -/
def IsEcho (a : Bool) (time : ℝ) (t : Target) (p : Path) : Prop :=
  ∃ σ φ : ℝ, p = .target (translation (t.pose time)) (t.vel time) σ φ a t.static ∧ 0 < φ ∧
    φ < 2 * Real.pi ∧ ∀ s, t.cross = fixed s → σ = s

/-- C78: unless a device is at a mirrored target position, a sample holds one path for each target, at the
position and with the velocity of its trajectory at the time of the sample, with its cross section if it is
a fixed one, some phase of a full turn, and visible in the null hypothesis if the target is static; in
addition the line of sight exactly if interference is enabled and the devices are apart.  Missing: devices
at mirrored positions (`C78_collision_fails`) and cross sections depending on directions
(`C78_direction_fails`). -/
theorem C78_paths_partial (r : MultiReal) (hv : r.vars = multiVars) (time : ℝ) (tx rx : Dev)
    (h : ∀ t ∈ r.targets, ∃ R p, IsRotation R ∧ t.pose time = assemble R p ∧ tx.pos ≠ mirrored R p ∧
      rx.pos ≠ mirrored R p ∧ ∃ x, r.consistent.sample (mirrored R p) rx.pos = .ok [x]) :
    ∃ ps los, r.paths time tx rx = .ok (ps ++ los) ∧
      List.Forall₂ (IsEcho r.attenuate time) r.targets ps ∧
      (r.interference = true ∧ tx.pos ≠ rx.pos → los = [.interference r.attenuate true]) ∧
      (r.interference = false ∨ tx.pos = rx.pos → los = []) := by
  have key : ∀ ts : List Target, (∀ t ∈ ts, ∃ R p, IsRotation R ∧ t.pose time = assemble R p ∧
      tx.pos ≠ mirrored R p ∧ rx.pos ≠ mirrored R p ∧
      ∃ x, r.consistent.sample (mirrored R p) rx.pos = .ok [x]) →
      ∃ ps, r.sampleTargets time tx rx ts = .ok ps ∧
        List.Forall₂ (IsEcho r.attenuate time) ts ps := by
    intro ts
    induction ts with
    | nil => intro _; exact ⟨[], rfl, .nil⟩
    | cons t ts ih =>
      intro h
      obtain ⟨ps, h1, h2⟩ := ih fun u hu => h u (List.mem_cons_of_mem _ hu)
      obtain ⟨R, p, hR, hp, ht, hr, x, hx⟩ := h t List.mem_cons_self
      have hval := sampleTarget_value r hv t time tx rx R hR p hp ht hr x hx
      have hall : r.sampleTargets time tx rx (t :: ts) = .ok (.target p (t.vel time)
          (t.cross (handed R (mirrored R p - tx.pos)) (handed R (rx.pos - mirrored R p)))
          (2 * Real.pi * normCdf x) r.attenuate t.static :: ps) := by
        simp only [MultiReal.sampleTargets, hval, h1]
      refine ⟨_, hall, .cons ?_ h2⟩
      have hn := Verif.Consistent.normCdf_range x
      have hpi := Real.pi_pos
      refine ⟨_, _, by rw [hp, translation_assemble], by have := hn.1; positivity,
        by nlinarith [hn.2], ?_⟩
      intro s hs
      rw [hs]
      rfl
  obtain ⟨ps, h1, h2⟩ := key r.targets h
  by_cases hi : r.interference = true ∧ tx.pos ≠ rx.pos
  · refine ⟨ps, [.interference r.attenuate true], by simp only [MultiReal.paths, h1, if_pos hi], h2,
      fun _ => rfl, ?_⟩
    rintro (h | h)
    · rw [hi.1] at h; cases h
    · exact absurd h hi.2
  · refine ⟨ps, [], by simp only [MultiReal.paths, h1, if_neg hi, List.append_nil], h2,
      fun h => absurd h hi, fun _ => rfl⟩

theorem isRotation_one : IsRotation (1 : Mat3) := ⟨by simp, by simp, by simp⟩

theorem mirrored_one (p : Vec3) : mirrored 1 p = -p := by simp [mirrored]

/-- A device at a position. -/
noncomputable def devAt (p : Vec3) : Dev := ⟨p, 0, 1, 1, 1, fun _ _ _ _ _ => 1⟩

/-- A target at rest with the orientation of the global coordinate system. -/
noncomputable def targetAt (cross : Vec3 → Vec3 → ℝ) (p : Vec3) : Target :=
  ⟨cross, fun _ => assemble 1 p, 0, false⟩

/-- A target at ten metres between two devices. -/
example : ∃ ps, (⟨.static [0], multiVars, [targetAt (fixed 2) ![10, 0, 0]], true, true, 1⟩ :
      MultiReal).paths 0 (devAt 0) (devAt ![0, 5, 0]) = .ok ps ∧ ps.length = 2 := by
  obtain ⟨ps, los, h, h2, h3, -⟩ := C78_paths_partial
    ⟨.static [0], multiVars, [targetAt (fixed 2) ![10, 0, 0]], true, true, 1⟩ rfl 0 (devAt 0)
    (devAt ![0, 5, 0]) (by
      intro t ht
      rw [List.mem_singleton.mp ht]
      refine ⟨1, ![10, 0, 0], isRotation_one, rfl, ?_, ?_, 0, rfl⟩
      · intro h
        have := congrFun h 0
        simp [mirrored_one, devAt] at this
      · intro h
        have := congrFun h 1
        simp [mirrored_one, devAt] at this)
  refine ⟨_, h, ?_⟩
  rw [h3 ⟨rfl, fun h => by have := congrFun h 1; simp [devAt] at this⟩, List.length_append, ← h2.length_eq]
  rfl

/-- C78, false of the code: a `RuntimeError` is documented for devices at the position of a target.  It is
raised for devices at the mirrored position instead, where nothing is.  At the target itself no exception
is raised by sampling, and propagating any signal over the sample then fails with a `ValueError`. -/
theorem C78_collision_fails (r : MultiReal) (hv : r.vars = multiVars) (t : Target) (time : ℝ) (R : Mat3)
    (hR : IsRotation R) (p : Vec3) (hp : t.pose time = assemble R p) (hm : p ≠ mirrored R p)
    (dev other : Dev) (x : ℝ) (hs : ∀ a b, r.consistent.sample a b = .ok [x]) (ho : other.pos ≠ mirrored R p) :
    (dev.pos = mirrored R p → r.sampleTarget t time dev other = .error .runtime ∧
      r.sampleTarget t time other dev = .error .runtime) ∧
    (dev.pos = p → ∃ path, r.sampleTarget t time dev other = .ok path ∧
      path.velocity dev other = .error .value) := by
  refine ⟨fun hd => ?_, fun hd => ?_⟩
  · obtain ⟨U, hU, hT⟩ := inverse_translation R hR p
    constructor <;> unfold MultiReal.sampleTarget <;> rw [hp, hU] <;> simp only [hT]
    · rw [if_pos hd.symm]
    · rw [if_neg (Ne.symm ho), if_pos hd.symm]
  · refine ⟨_, sampleTarget_value r hv t time dev other R hR p hp (hd ▸ hm) ho x (hs _ _), ?_⟩
    exact velocity_error fun h => h.1 hd.symm

example : (⟨.static [0], multiVars, [], true, true, 1⟩ : MultiReal).sampleTarget
    (targetAt (fixed 2) ![10, 0, 0]) 0 (devAt ![-10, 0, 0]) (devAt 0) = .error .runtime :=
  ((C78_collision_fails ⟨.static [0], multiVars, [], true, true, 1⟩ rfl (targetAt (fixed 2) ![10, 0, 0]) 0 1
    isRotation_one ![10, 0, 0] rfl (by
      intro h
      have := congrFun h 0
      simp [mirrored_one] at this
      norm_num at this) (devAt ![-10, 0, 0]) (devAt 0) 0 (fun _ _ => rfl) (by
      intro h
      have := congrFun h 0
      simp [mirrored_one, devAt] at this)).1 (by
      funext i
      fin_cases i <;> simp [mirrored_one, devAt])).1

/-- Direction, in the target's coordinates, of a wave from one position to another: the specification. -/
noncomputable def localDirection (R : Mat3) (a b : Vec3) : Vec3 :=
  R.transpose.mulVec (scale (b - a) (norm3 (b - a)))

/-- C78: for a target at the origin whose orientation is its own inverse, the cross section model is asked
for the directions the wave impinges from the transmitter and emerges to the receiver, in coordinates of
the target.  Missing: all other targets (`C78_direction_fails`). -/
theorem C78_direction_partial (r : MultiReal) (hv : r.vars = multiVars) (t : Target) (time : ℝ) (R : Mat3)
    (hR : IsRotation R) (hsym : R.transpose = R) (hp : t.pose time = assemble R 0) (tx rx : Dev)
    (h1 : tx.pos ≠ 0) (h2 : rx.pos ≠ 0) (x : ℝ) (hs : ∀ a b, r.consistent.sample a b = .ok [x]) :
    r.sampleTarget t time tx rx = .ok (.target 0 (t.vel time)
      (t.cross (localDirection R tx.pos 0) (localDirection R 0 rx.pos))
      (2 * Real.pi * normCdf x) r.attenuate t.static) := by
  have hm : mirrored R 0 = 0 := by simp [mirrored]
  have hlen : ∀ v : Vec3, norm3 (R.mulVec v) = norm3 v := by
    intro v
    have hsq : ∀ w : Vec3, w 0 ^ 2 + w 1 ^ 2 + w 2 ^ 2 = w ⬝ᵥ w := by
      intro w; simp [dotProduct, Fin.sum_univ_three, pow_two]
    unfold norm3
    rw [hsq, hsq, Matrix.dotProduct_mulVec, Matrix.vecMul_mulVec, hR.2.1, Matrix.vecMul_one]
  have hh : ∀ v, handed R v = R.transpose.mulVec (scale v (norm3 v)) := by
    intro v
    rw [hsym]
    unfold handed
    rw [hlen]
    funext i
    simp only [scale, Matrix.mulVec, dotProduct, Fin.sum_univ_three]
    ring
  rw [sampleTarget_value r hv t time tx rx R hR 0 hp (by rw [hm]; exact h1) (by rw [hm]; exact h2) x
    (hs _ _), hm, hh, hh]
  rfl

/-- C78, false of the code: for every target that is not at the origin, oriented as the global coordinate
system and illuminated from there, the cross section model is asked for the opposite directions: the wave
seems to impinge from behind the target and to be scattered away from the radar. -/
theorem C78_direction_fails (r : MultiReal) (hv : r.vars = multiVars) (t : Target) (time : ℝ) (p : Vec3)
    (h0 : p ≠ 0) (hp : t.pose time = assemble 1 p) (dev : Dev) (hd : dev.pos = 0) (x : ℝ)
    (hs : ∀ a b, r.consistent.sample a b = .ok [x]) :
    r.sampleTarget t time dev dev = .ok (.target p (t.vel time)
      (t.cross (-localDirection 1 dev.pos p) (-localDirection 1 p dev.pos))
      (2 * Real.pi * normCdf x) r.attenuate t.static) ∧
    localDirection 1 dev.pos p ≠ -localDirection 1 dev.pos p := by
  have hne : dev.pos ≠ mirrored 1 p := by
    rw [mirrored_one, hd]
    intro h
    exact h0 (neg_eq_zero.mp h.symm)
  have hneg : norm3 (-p) = norm3 p := by rw [← zero_sub, norm3_sub_comm, sub_zero]
  refine ⟨?_, ?_⟩
  · rw [sampleTarget_value r hv t time dev dev 1 isRotation_one p hp hne hne x (hs _ _), mirrored_one, hd]
    have e1 : handed 1 (-p - 0) = -localDirection 1 0 p := by
      unfold handed localDirection
      simp only [Matrix.one_mulVec, Matrix.transpose_one, sub_zero, hneg]
      funext i
      simp [scale, neg_div]
    have e2 : handed 1 (0 - -p) = -localDirection 1 p 0 := by
      unfold handed localDirection
      simp only [Matrix.one_mulVec, Matrix.transpose_one, zero_sub, neg_neg, hneg]
      funext i
      simp [scale, neg_div]
    rw [e1, e2]
  · unfold localDirection
    rw [hd, sub_zero]
    simp only [Matrix.transpose_one, Matrix.one_mulVec]
    intro h
    apply h0
    have hn := norm3_ne h0
    funext i
    have hi := congrFun h i
    simp only [scale, Pi.neg_apply] at hi
    have : p i / norm3 p = 0 := by linarith
    rcases div_eq_zero_iff.mp this with h | h
    · exact h
    · exact absurd h hn.ne'

/-- A retro-reflector that is only visible for waves travelling along the first axis, at ten metres in this
direction, is not seen. -/
example : (⟨.static [0], multiVars, [], true, true, 1⟩ : MultiReal).sampleTarget
    (targetAt (fun i _ => if 0 < i 0 then 1 else 0) ![10, 0, 0]) 0 (devAt 0) (devAt 0) =
      .ok (.target ![10, 0, 0] 0 0 (2 * Real.pi * normCdf 0) true false) := by
  have h := (C78_direction_fails ⟨.static [0], multiVars, [], true, true, 1⟩ rfl
    (targetAt (fun i _ => if 0 < i 0 then 1 else 0) ![10, 0, 0]) 0 ![10, 0, 0]
    (fun h => by have := congrFun h 0; simp at this) rfl (devAt 0) rfl 0 (fun _ _ => rfl)).1
  rw [h]
  have hs : Real.sqrt (10 ^ 2) = 10 := by rw [Real.sqrt_sq]; norm_num
  have hc : ¬ 0 < (-localDirection 1 (devAt 0).pos ![10, 0, 0]) 0 := by
    simp [localDirection, devAt, scale, norm3, hs]
  simp only [targetAt, if_neg hc]
  rfl

end Verif.RadarChannel
