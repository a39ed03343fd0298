import Verif.Io.Hdf

/-!
# C35: recorded drops in the file

`Scenario.drop` records with `serialize_object_sequence([drop], "drops", append=True, root=True)`
(`core/scenario.py` 849-852) and replays with `deserialize_object_sequence("drops", …, k, k + 1)[0]`
(829-831), on the processes of `Verif.Io.Hdf`.
-/

namespace Verif.Sim

open Verif.Io

variable {V A T : Type}

/-- The group of drops in the base group `b` of a campaign. -/
def dropsAt (b : Path) : Path := .field "drops" :: b

/-- Recording of one drop, `core/factory.py` 961-990 with `append` and `root`: the group is created if
there is none, the drop gets the next number, and, being a root object, is written with cleared caches
(928-934).  `H` is the heap at that moment. -/
def recordDrop (H : Nat → Obj V A T) (reg : T → Bool) (R : Nat) (b : Path) (F : File V A T) (r : Nat) :
    Except PyErr (File V A T) :=
  let F1 := if (F.links (dropsAt b)).isSome then F else addLink F (.field "drops") b .group
  match writeObj H reg R (.idx (F1.kids (dropsAt b))) (dropsAt b) r ⟨F1, fun _ => none, fun _ => none⟩ with
  | .error e => .error e
  | .ok w => .ok w.file

/-- Replay of drop number `k`, `core/factory.py` 1193-1220 and `[0]`. -/
def replayDrop (F : File V A T) (schema : T → List (String × Kind)) (reg : T → Bool) (R : Nat) (b : Path)
    (k : Nat) (s : Reader V A T) : Except PyErr (Reader V A T × Nat) :=
  if (F.links (dropsAt b)).isNone then .error .runtime
  else if k < F.kids (dropsAt b) then readObj F schema reg R (.idx k) (dropsAt b) s
  else .error .index

/-- A drop and the heap it lives in when it is recorded. -/
structure Drop (V A T : Type) where
  heap : Nat → Obj V A T
  rank : Nat → Nat
  val : Nat → A
  root : Nat

/-- Recording of several drops. -/
def recordDrops (reg : T → Bool) (R : Nat) (b : Path) :
    File V A T → List (Drop V A T) → Except PyErr (File V A T)
  | F, [] => .ok F
  | F, d :: ds => match recordDrop d.heap reg R b F d.root with
    | .error e => .error e
    | .ok F1 => recordDrops reg R b F1 ds

/-- Numbers not yet used by drops are free: nothing is stored there. -/
def Free (F : File V A T) (b : Path) : Prop :=
  ((F.links (dropsAt b)) = none → F.kids (dropsAt b) = 0) ∧
  ∀ j, F.kids (dropsAt b) ≤ j → ∀ q, (Seg.idx j :: dropsAt b) <:+ q →
    F.links q = none ∧ F.attr q = none ∧ F.kids q = 0

/-- Two files agree on a drop. -/
def SameDrop (F F' : File V A T) (b : Path) (j : Nat) : Prop :=
  ∀ q, (Seg.idx j :: dropsAt b) <:+ q →
    F'.links q = F.links q ∧ F'.attr q = F.attr q ∧ F'.tag q = F.tag q ∧ F'.kids q = F.kids q

/-- A recorded drop is read back as a copy, whatever the reader has read before. -/
def Replays (F : File V A T) (schema : T → List (String × Kind)) (reg : T → Bool) (R : Nat) (b : Path)
    (k : Nat) (d : Drop V A T) : Prop :=
  ∀ s : Reader V A T, ∃ s' n φ ψ, replayDrop F schema reg R b k s = .ok (s', n) ∧ Inj φ ∧ Inj ψ ∧
    φ d.root = some n ∧
    (∀ r n, φ r = some n → ∃ o, s'.objs[n]? = some o ∧ o.tag = (d.heap r).tag ∧
      List.Forall₂ (FieldCopy φ ψ) (d.heap r).fields o.fields) ∧
    (∀ a n, ψ a = some n → s'.arrs[n]? = some (d.val a))

theorem dropsAt_ne (b : Path) (j : Nat) (q : Path) (h : (Seg.idx j :: dropsAt b) <:+ q) :
    q ≠ dropsAt b := by
  rintro rfl
  exact not_suffix_self _ _ h

theorem not_below_self (b : Path) (j : Nat) (q : Path) (h : (Seg.idx j :: dropsAt b) <:+ q) : q ≠ b := by
  rintro rfl
  have := h.length_le
  simp [dropsAt] at this
  omega

/-- The group of drops exists, or is created; nothing else changes. -/
theorem ensure_spec (F : File V A T) (b : Path) (hF : Free F b) (F1 : File V A T)
    (h : F1 = if (F.links (dropsAt b)).isSome then F else addLink F (.field "drops") b .group) :
    F1.links (dropsAt b) ≠ none ∧ F1.kids (dropsAt b) = F.kids (dropsAt b) ∧
    (∀ j q, (Seg.idx j :: dropsAt b) <:+ q → F1.links q = F.links q ∧ F1.attr q = F.attr q ∧
      F1.tag q = F.tag q ∧ F1.kids q = F.kids q) := by
  subst h
  split
  · rename_i hs
    refine ⟨?_, rfl, fun _ _ _ => ⟨rfl, rfl, rfl, rfl⟩⟩
    intro hc; rw [hc] at hs; cases hs
  · rename_i hs
    refine ⟨?_, ?_, ?_⟩
    · simp [addLink, upd, dropsAt]
    · simp only [addLink, upd]
      rw [if_neg]
      intro e
      have := congrArg List.length e
      simp [dropsAt] at this
    · intro j q hq
      refine ⟨?_, rfl, rfl, ?_⟩
      · simp only [addLink, upd]
        rw [if_neg (show ¬ q = Seg.field "drops" :: b from dropsAt_ne b j q hq)]
      · simp only [addLink, upd]
        rw [if_neg (not_below_self b j q hq)]

/-- Recording one drop: it can be replayed from any later file agreeing on it, other drops are
unchanged, and the next numbers stay free. -/
theorem recordDrop_spec {schema : T → List (String × Kind)} (d : Drop V A T)
    (snd : Sound d.heap schema d.rank d.val) (reg : T → Bool) (R : Nat) (b : Path) (F F' : File V A T)
    (hF : Free F b) (h : recordDrop d.heap reg R b F d.root = .ok F') :
    F'.links (dropsAt b) ≠ none ∧ F'.kids (dropsAt b) = F.kids (dropsAt b) + 1 ∧ Free F' b ∧
    (∀ j, j < F.kids (dropsAt b) → SameDrop F F' b j) ∧
    ∀ G : File V A T, G.links (dropsAt b) ≠ none → F.kids (dropsAt b) < G.kids (dropsAt b) →
      SameDrop F' G b (F.kids (dropsAt b)) → Replays G schema reg R b (F.kids (dropsAt b)) d := by
  unfold recordDrop at h
  dsimp only at h
  generalize hF1 : (if (F.links (dropsAt b)).isSome then F else addLink F (.field "drops") b .group) = F1 at h
  obtain ⟨e1, e2, e3⟩ := ensure_spec F b hF F1 hF1.symm
  rw [e2] at h
  generalize hk : F.kids (dropsAt b) = k at *
  split at h
  · cases h
  rename_i w hw
  cases h
  have hfresh : Fresh (⟨F1, fun _ => none, fun _ => none⟩ : Writer V A T) (.idx k :: dropsAt b) := by
    intro q hq
    obtain ⟨a1, a2, _, a4⟩ := e3 k q hq
    obtain ⟨c1, c2, c3⟩ := hF.2 k (by rw [hk]) q hq
    exact ⟨a1.trans c1, a2.trans c2, a4.trans c3⟩
  have hfr := writeObj_frame d.heap reg R _ _ _ _ _ hw
  have hkids := writeObj_kids d.heap reg R _ _ _ _ _ hw hfresh
  have hlinks : w.file.links (dropsAt b) ≠ none := by
    rw [hfr.links _ (not_suffix_self _ _)]
    exact e1
  have other : ∀ j, j ≠ k → ∀ q, (Seg.idx j :: dropsAt b) <:+ q →
      w.file.links q = F.links q ∧ w.file.attr q = F.attr q ∧ w.file.tag q = F.tag q ∧
      w.file.kids q = F.kids q := by
    intro j hj q hq
    have hn : ¬ (Seg.idx k :: dropsAt b) <:+ q := suffix_cons_ne (by simpa using hj) hq
    obtain ⟨a1, a2, a3, a4⟩ := e3 j q hq
    exact ⟨(hfr.links q hn).trans a1, (hfr.attr q hn).trans a2, (hfr.tag q hn).trans a3,
      (hfr.kids q hn (dropsAt_ne b j q hq)).trans a4⟩
  have hkids' : w.file.kids (dropsAt b) = k + 1 := by rw [hkids]; dsimp only; rw [e2]
  refine ⟨hlinks, hkids', ⟨fun hc => absurd hc hlinks, ?_⟩, ?_, ?_⟩
  · intro j hj q hq
    obtain ⟨o1, o2, _, o4⟩ := other j (by omega) q hq
    obtain ⟨c1, c2, c3⟩ := hF.2 j (by omega) q hq
    exact ⟨o1.trans c1, o2.trans c2, o4.trans c3⟩
  · intro j hj q hq
    exact other j (by omega) q hq
  · intro G hG1 hG2 hG3 s
    have c : Corr d.heap d.rank d.val (d.rank d.root + 1)
        (⟨F1, fun _ => none, fun _ => none⟩ : Writer V A T) s (fun _ => none) (fun _ => none) := by
      constructor <;> intros <;> simp_all [Inj]
    have ha : Agree G w (.idx k :: dropsAt b) := fun q hq => hG3 q hq
    obtain ⟨s', φ, ψ, n, r1, st, r2, _⟩ := sim_obj snd reg G R _ _ _ _ _ _ _ _ _ hw hfresh c
      (Nat.lt_succ_self _) ha
    refine ⟨s', n, φ, ψ, ?_, st.corr.inj, st.corr.ainj, r2, st.corr.copy, st.corr.acopy⟩
    unfold replayDrop
    rw [if_neg (by simpa using hG1), if_pos hG2]
    exact r1

/-- **C35** (drops in the file): after recording drops to a campaign, appended to those there, each can
be replayed by its number: the drop read has the tags, the values, the arrays and the sharing of the
drop recorded.  This holds for every reader, in particular after reading any other drops, and the
earlier drops' part of the file is unchanged.  The heaps of the drops are unrelated, so objects and
addresses may be used again from drop to drop. -/
theorem C35_file_round_trip {schema : T → List (String × Kind)} (reg : T → Bool) (R : Nat) (b : Path)
    (ds : List (Drop V A T)) (snd : ∀ d ∈ ds, Sound d.heap schema d.rank d.val) (F F' : File V A T)
    (hF : Free F b) (h : recordDrops reg R b F ds = .ok F') :
    F'.kids (dropsAt b) = F.kids (dropsAt b) + ds.length ∧
    (∀ j, j < F.kids (dropsAt b) → SameDrop F F' b j) ∧
    (∀ i d, ds[i]? = some d → Replays F' schema reg R b (F.kids (dropsAt b) + i) d) ∧
    (F.links (dropsAt b) ≠ none ∨ ds ≠ [] → ∀ k s, F'.kids (dropsAt b) ≤ k →
      replayDrop F' schema reg R b k s = .error .index) := by
  have key : ∀ (ds : List (Drop V A T)) (F : File V A T), (∀ d ∈ ds, Sound d.heap schema d.rank d.val) →
      Free F b → recordDrops reg R b F ds = .ok F' →
      F'.kids (dropsAt b) = F.kids (dropsAt b) + ds.length ∧
      (F.links (dropsAt b) ≠ none ∨ ds ≠ [] → F'.links (dropsAt b) ≠ none) ∧
      (∀ j, j < F.kids (dropsAt b) → SameDrop F F' b j) ∧
      (∀ (i : Nat) d, ds[i]? = some d → Replays F' schema reg R b (F.kids (dropsAt b) + i) d) := by
    intro ds
    induction ds with
    | nil =>
      intro F _ _ h
      cases h
      exact ⟨rfl, fun h => h.elim id (fun h => absurd rfl h), fun _ _ _ _ => ⟨rfl, rfl, rfl, rfl⟩,
        fun i d h => by simp at h⟩
    | cons d ds ih =>
      intro F snd hF h
      unfold recordDrops at h
      split at h
      · cases h
      rename_i F1 h1
      obtain ⟨a1, a2, a3, a4, a5⟩ := recordDrop_spec d (snd d List.mem_cons_self) reg R b F F1 hF h1
      obtain ⟨b1, b2, b3, b4⟩ := ih F1 (fun x hx => snd x (List.mem_cons_of_mem _ hx)) a3 h
      have hl := b2 (Or.inl a1)
      refine ⟨by rw [b1, a2, List.length_cons]; omega, fun _ => hl, ?_, ?_⟩
      · intro j hj q hq
        obtain ⟨x1, x2, x3, x4⟩ := b3 j (by omega) q hq
        obtain ⟨y1, y2, y3, y4⟩ := a4 j hj q hq
        exact ⟨x1.trans y1, x2.trans y2, x3.trans y3, x4.trans y4⟩
      · intro i d' hi
        cases i with
        | zero =>
          simp only [List.getElem?_cons_zero, Option.some.injEq] at hi
          subst hi
          exact a5 F' hl (by rw [b1, a2]; omega) (b3 _ (by omega))
        | succ i =>
          rw [List.getElem?_cons_succ] at hi
          have := b4 i d' hi
          rw [a2] at this
          rw [show F.kids (dropsAt b) + (i + 1) = F.kids (dropsAt b) + 1 + i by omega]
          exact this
  obtain ⟨k1, k2, k3, k4⟩ := key ds F snd hF h
  refine ⟨k1, k3, k4, ?_⟩
  intro hne k s hk
  unfold replayDrop
  rw [if_neg (by simpa using k2 hne), if_neg (by omega)]

/-- A new file has no drops and free numbers. -/
theorem free_new (b : Path) : Free (newWriter : Writer V A T).file b := by
  have h : ∀ q : Path, q ≠ [.field "arrays"] → (newWriter : Writer V A T).file.links q = none := by
    intro q hq
    simp only [newWriter, addLink, upd]
    rw [if_neg hq]
  have h2 : ∀ q : Path, q ≠ [] → (newWriter : Writer V A T).file.kids q = 0 := by
    intro q hq
    simp only [newWriter, addLink, upd]
    rw [if_neg hq]
  refine ⟨fun _ => h2 _ (by simp [dropsAt]), ?_⟩
  intro j _ q hq
  refine ⟨h q ?_, rfl, h2 q ?_⟩
  · rintro rfl
    have := hq.length_le
    simp [dropsAt] at this
  · rintro rfl
    have := hq.length_le
    simp [dropsAt] at this

/-- A drop referring twice to one transmission (object 1) with an array of content `v`. -/
def sharedDrop (v : Nat) : Drop Nat Nat Nat where
  heap := fun r => if r = 0 then ⟨7, [("a", .obj 1), ("b", .obj 1)]⟩ else ⟨8, [("x", .arr 3 v)]⟩
  rank := fun r => if r = 0 then 1 else 0
  val := fun _ => v
  root := 0

/-- Reading order of the two classes. -/
def dropSchema (t : Nat) : List (String × Kind) :=
  if t = 7 then [("a", .obj), ("b", .obj)] else [("x", .arr)]

/-- Hypotheses are met: two drops with the same addresses and different contents are recorded. -/
example : ∃ F', recordDrops (fun _ => true) 5 [] (newWriter : Writer Nat Nat Nat).file
      [sharedDrop 4, sharedDrop 9] = .ok F' ∧ F'.kids (dropsAt []) = 2 ∧
    (∀ v, Sound (sharedDrop v).heap dropSchema (sharedDrop v).rank (sharedDrop v).val) := by
  refine ⟨_, rfl, rfl, ?_⟩
  intro v
  refine ⟨?_, ?_, ?_, ?_⟩
  · intro r; by_cases h : r = 0 <;> simp [sharedDrop, h]
  · intro r
    by_cases h : r = 0
    · simp [sharedDrop, h, dropSchema, Fits]
    · simp [sharedDrop, h, dropSchema, Fits]
  · intro r f hf r' hr
    by_cases h : r = 0
    · simp only [sharedDrop, h, if_true, List.mem_cons, List.not_mem_nil, or_false] at hf
      rcases hf with rfl | rfl <;> (simp only [Refers] at hr; subst hr; simp [sharedDrop, h])
    · simp only [sharedDrop, h, if_false, List.mem_cons, List.not_mem_nil, or_false] at hf
      subst hf
      exact absurd hr (by simp [Refers])
  · intro r f hf a u hu
    by_cases h : r = 0
    · simp only [sharedDrop, h, if_true, List.mem_cons, List.not_mem_nil, or_false] at hf
      rcases hf with rfl | rfl <;> cases hu
    · simp only [sharedDrop, h, if_false, List.mem_cons, List.not_mem_nil, or_false] at hf
      subst hf
      cases hu
      rfl

end Verif.Sim
