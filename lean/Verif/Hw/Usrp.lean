import Verif.Np
import Verif.Hw.Physical
import Mathlib.Data.Rat.Floor

/-!
# USRP devices (C112)

Model of `hermespy/hardware_loop/uhd/usrp.py` and `hardware_loop/uhd/system.py`: remote calls with retries, the configuration
of the remote front-end, preparation of uploaded samples, padding, the samples collected, and the corrections by delay and antenna
calibrations (C109, C111).  The remote host is modelled by the outcomes of its calls, the radio by a loop from the transmit to the
receive ports with an arbitrary delay.  Not modelled: the USRP client library, antennas, gains and filters of the front-end.
-/

namespace Verif.HwUsrp

open Verif.HwDevice (Sig correct scale triggerDirect)

/-! ## Remote calls -/

/-- The outcome of an attempt to call the remote host: it returns, the connection is lost, or it raises an error.  `executed` tells
whether the remote host executed the call although no reply arrived. -/
inductive Attempt
  | ok
  | lost (executed : Bool)
  | remote (executed : Bool)

/-- `UsrpDevice.__rpc_call_wrapper`, `uhd/usrp.py` 263-283, with `n` attempts left: whether the call was executed, and the result. -/
def rpcN : ℕ → (ℕ → Attempt) → Bool × Except PyErr Unit
  | 0, _ => (false, .error .runtime)
  | n + 1, f =>
    match f 0 with
    | .ok => (true, .ok ())
    | .remote x => (x, .error .runtime)
    | .lost x => let r := rpcN n fun k => f (k + 1); (x || r.1, r.2)

/-- Ten attempts, `uhd/usrp.py` 111. -/
def rpc (f : ℕ → Attempt) : Bool × Except PyErr Unit := rpcN 10 f

theorem rpcN_ok (n : ℕ) (f : ℕ → Attempt) :
    (rpcN n f).2 = .ok () ↔ ∃ k < n, f k = .ok ∧ ∀ j < k, ∃ x, f j = .lost x := by
  induction n generalizing f with
  | zero =>
    constructor
    · intro h; cases h
    · rintro ⟨k, hk, _⟩; exact absurd hk (Nat.not_lt_zero k)
  | succ n ih =>
    unfold rpcN
    cases h0 : f 0 with
    | ok =>
      simp only
      exact ⟨fun _ => ⟨0, Nat.succ_pos n, h0, fun j hj => absurd hj (Nat.not_lt_zero j)⟩, fun _ => trivial⟩
    | remote x =>
      simp only
      constructor
      · intro h; cases h
      · rintro ⟨k, _, hk, hj⟩
        cases k with
        | zero => rw [h0] at hk; cases hk
        | succ k =>
          obtain ⟨y, hy⟩ := hj 0 (Nat.succ_pos k)
          rw [h0] at hy; cases hy
    | lost x =>
      simp only
      rw [ih]
      constructor
      · rintro ⟨k, hk, h1, h2⟩
        refine ⟨k + 1, by omega, h1, ?_⟩
        intro j hj
        cases j with
        | zero => exact ⟨x, h0⟩
        | succ j => exact h2 j (by omega)
      · rintro ⟨k, hk, h1, h2⟩
        cases k with
        | zero => rw [h0] at h1; cases h1
        | succ k => exact ⟨k, by omega, h1, fun j hj => h2 (j + 1) (by omega)⟩

theorem rpcN_error (n : ℕ) (f : ℕ → Attempt) : (rpcN n f).2 = .ok () ∨ (rpcN n f).2 = .error .runtime := by
  induction n generalizing f with
  | zero => exact Or.inr rfl
  | succ n ih =>
    unfold rpcN
    cases f 0 with
    | ok => exact Or.inl rfl
    | remote x => exact Or.inr rfl
    | lost x => exact ih _

theorem rpcN_executed (n : ℕ) (f : ℕ → Attempt) (h : (rpcN n f).2 = .ok ()) : (rpcN n f).1 = true := by
  induction n generalizing f with
  | zero => cases h
  | succ n ih =>
    unfold rpcN at h ⊢
    cases h0 : f 0 with
    | ok => rfl
    | remote x => rw [h0] at h; cases h
    | lost x =>
      rw [h0] at h
      simp only at h ⊢
      rw [ih _ h, Bool.or_true]

/-- **C112, remote calls.** A remote call returns exactly if one of ten attempts does and the connection was lost in all before it;
the call was then executed.  Otherwise `RuntimeError` is raised. -/
theorem C112_rpc (f : ℕ → Attempt) :
    ((rpc f).2 = .ok () ↔ ∃ k < 10, f k = .ok ∧ ∀ j < k, ∃ x, f j = .lost x) ∧
      ((rpc f).2 = .ok () → (rpc f).1 = true) ∧ ((rpc f).2 = .ok () ∨ (rpc f).2 = .error .runtime) :=
  ⟨rpcN_ok 10 f, rpcN_executed 10 f, rpcN_error 10 f⟩

-- Nine lost attempts do not matter, ten do.
example : (rpc fun k => if k < 9 then .lost false else .ok).2 = .ok () ∧
    (rpc fun k => if k < 10 then .lost false else .ok).2 = .error .runtime := ⟨rfl, rfl⟩

/-! ## Configurations -/

/-- The configuration of a device: `want` are the values of its properties, `known` is `__current_configuration`, `hw` is what the
remote front-end is configured to (`uhd/usrp.py` 122, 285-329). -/
structure Front (C : Type) where
  want : C
  known : C
  hw : C

/-- `UsrpDevice._configure_device`, `uhd/usrp.py` 285-329, with the outcome of its remote call. -/
def Front.configure {C : Type} [DecidableEq C] (s : Front C) (force : Bool) (f : ℕ → Attempt) : Front C × Except PyErr Unit :=
  if s.want ≠ s.known ∨ force then
    match (rpc f).2 with
    | .ok _ => ({ s with known := s.want, hw := s.want }, .ok ())
    | .error e => ({ s with hw := if (rpc f).1 then s.want else s.hw }, .error e)
  else (s, .ok ())

/-- What a user does: setting properties, and transmitting, with the outcomes of the remote call. -/
inductive Op (C : Type)
  | set (c : C)
  | upload (f : ℕ → Attempt)

/-- The setters (`uhd/usrp.py` 492-504, 549-551, 578-580) change nothing but the property, uploads start with configuring the device
(`uhd/usrp.py` 334-335). -/
def Front.step {C : Type} [DecidableEq C] (s : Front C) : Op C → Front C
  | .set c => { s with want := c }
  | .upload f => (s.configure false f).1

/-- A history. -/
def Front.run {C : Type} [DecidableEq C] (s : Front C) (ops : List (Op C)) : Front C := ops.foldl Front.step s

/-- Calls that raised were not executed by the remote host. -/
def Op.Clean {C : Type} : Op C → Prop
  | .set _ => True
  | .upload f => (rpc f).2 ≠ .ok () → (rpc f).1 = false

theorem configure_inv {C : Type} [DecidableEq C] (s : Front C) (b : Bool) (f : ℕ → Attempt) (hs : s.known = s.hw)
    (hf : (rpc f).2 ≠ .ok () → (rpc f).1 = false) : (s.configure b f).1.known = (s.configure b f).1.hw := by
  unfold Front.configure
  by_cases h : s.want ≠ s.known ∨ b = true
  · rw [if_pos h]
    cases hr : (rpc f).2 with
    | ok u => rfl
    | error e =>
      show s.known = if (rpc f).1 then s.want else s.hw
      rw [hf (by rw [hr]; exact fun h => nomatch h), if_neg (by decide), hs]
  · rw [if_neg h]; exact hs

theorem configure_idle {C : Type} [DecidableEq C] (s : Front C) (h : s.want = s.known) (g : ℕ → Attempt) :
    s.configure false g = (s, .ok ()) := by
  unfold Front.configure
  rw [if_neg]
  rintro (h' | h')
  · exact h' h
  · cases h'

/-- **C112, configurations.** Whatever properties are set and whatever is transmitted, as long as no call that raised was executed
after all, a transmission that does not raise leaves the remote front-end configured to the properties' values, and a front-end that
has them already is not configured again. -/
theorem C112_configure_partial {C : Type} [DecidableEq C] (s : Front C) (hs : s.known = s.hw) (ops : List (Op C))
    (h : ∀ op ∈ ops, op.Clean) (f : ℕ → Attempt) (hf : ((s.run ops).configure false f).2 = .ok ()) :
    ((s.run ops).configure false f).1.hw = (s.run ops).want ∧ ((s.run ops).configure false f).1.want = (s.run ops).want ∧
      ∀ g, (((s.run ops).configure false f).1.configure false g) = (((s.run ops).configure false f).1, .ok ()) := by
  have inv : ∀ (ops : List (Op C)) (s : Front C), s.known = s.hw → (∀ op ∈ ops, op.Clean) → (s.run ops).known = (s.run ops).hw := by
    intro ops
    induction ops with
    | nil => intro s hs _; exact hs
    | cons op ops ih =>
      intro s hs h
      refine ih (s.step op) ?_ (fun o ho => h o (List.mem_cons_of_mem _ ho))
      cases op with
      | set c => exact hs
      | upload f => exact configure_inv s false f hs (h (.upload f) List.mem_cons_self)
  have hi := inv ops s hs h
  set t := s.run ops with ht
  have key : (t.configure false f).1.hw = t.want ∧ (t.configure false f).1.want = t.want ∧
      (t.configure false f).1.known = t.want := by
    unfold Front.configure at hf ⊢
    by_cases hc : t.want ≠ t.known ∨ false = true
    · rw [if_pos hc] at hf ⊢
      cases hr : (rpc f).2 with
      | ok u => exact ⟨rfl, rfl, rfl⟩
      | error e => rw [hr] at hf; cases hf
    · rw [if_neg hc]
      have : t.want = t.known := by
        by_contra hne; exact hc (Or.inl hne)
      exact ⟨by rw [this]; exact hi.symm, rfl, this.symm⟩
  refine ⟨key.1, key.2.1, ?_⟩
  intro g
  exact configure_idle _ (by rw [key.2.1, key.2.2]) g

/-- **C112, false part.** If a configuration was executed although the connection was lost, setting the property back leaves the
front-end with the other value: the next transmission does not configure it. -/
theorem C112_configure_fails {C : Type} [DecidableEq C] (a b : C) (hab : a ≠ b) :
    let s := (Front.run ⟨a, a, a⟩ [.set b, .upload fun _ => .lost true, .set a]).configure false fun _ => .ok
    s.2 = .ok () ∧ s.1.want = a ∧ s.1.hw = b := by
  have e1 : Front.run ⟨a, a, a⟩ [.set b, .upload fun _ => .lost true, .set a] = (⟨a, a, b⟩ : Front C) := by
    show ({ ((Front.configure ⟨b, a, a⟩ false fun _ => .lost true).1) with want := a } : Front C) = _
    unfold Front.configure
    rw [if_pos (Or.inl (Ne.symm hab))]
    rfl
  simp only
  rw [e1]
  unfold Front.configure
  rw [if_neg (by rintro (h | h); exact h rfl; cases h)]
  exact ⟨rfl, rfl, rfl⟩

example : ((Front.run ⟨(1 : ℕ), 1, 1⟩ [.set 2]).configure false fun k => if k = 0 then .lost false else .ok) =
    (⟨2, 2, 2⟩, .ok ()) := rfl

/-! ## Ports -/

/-- The port selection of `UsrpDevice.__init__`, `uhd/usrp.py` 201-215 (transmit) and 217-229 (receive). -/
def selectPorts (maxPorts : ℕ) (selected : Option (List ℕ)) : Except PyErr (List ℕ) :=
  let p := match selected with
    | some l => l
    | none => if 0 < maxPorts then [0] else []
  if maxPorts < 1 + p.foldl max 0 then .error .value else .ok p

/-- **C112, ports.** Selected ports the device does not have raise `ValueError`, other selections are used as they are; the first
port is the default. -/
theorem C112_ports_partial (n : ℕ) (hn : 0 < n) (l : List ℕ) :
    selectPorts n none = .ok [0] ∧
      (selectPorts n (some l) = if ∀ p ∈ l, p < n then .ok l else .error .value) := by
  have hm : ∀ (l : List ℕ) (a : ℕ), n < 1 + l.foldl max a ↔ n < 1 + a ∨ ∃ p ∈ l, n ≤ p := by
    intro l
    induction l with
    | nil => intro a; simp
    | cons b l ih =>
      intro a
      show n < 1 + l.foldl max (max a b) ↔ _
      rw [ih]
      simp only [List.mem_cons, exists_eq_or_imp]
      rw [← or_assoc]
      apply or_congr _ Iff.rfl
      rcases le_total a b with h | h
      · rw [max_eq_right h]; omega
      · rw [max_eq_left h]; omega
  constructor
  · unfold selectPorts
    simp only [hn, if_true]
    rw [if_neg]
    show ¬ n < 1 + max 0 0
    simp
    omega
  · unfold selectPorts
    simp only
    by_cases h : ∀ p ∈ l, p < n
    · rw [if_pos h, if_neg]
      rw [hm]
      rintro (h' | ⟨p, hp, h'⟩)
      · omega
      · exact absurd (h p hp) (by omega)
    · rw [if_neg h, if_pos]
      rw [hm]
      right
      by_contra hc
      apply h
      intro p hp
      by_contra hp'
      exact hc ⟨p, hp, by omega⟩

/-- **C112, false part.** Devices without ports cannot be created, although an empty selection is provided for. -/
theorem C112_ports_fails (l : Option (List ℕ)) : selectPorts 0 l = .error .value := by
  unfold selectPorts
  simp only
  rw [if_pos (by omega)]

/-! ## Samples -/

/-- The parameters of uploads and downloads: sampling rate, numbers of zeros before and after, the receivers' minimal number of
samples per frame, the maximum receive delay, the scaling flag, the weights of the antenna calibration, and the delay of the delay
calibration. -/
structure Radio where
  fs : ℚ
  pre : ℕ
  app : ℕ
  minFrame : ℕ
  maxDelay : ℚ
  scaleTx : Bool
  txW : Option (List ℂ)
  rxW : Option (List ℂ)
  delay : ℚ

/-- The greatest magnitude of all samples, `uhd/usrp.py` 352. -/
noncomputable def peak (x : List (List ℂ)) : ℝ := (x.flatten.map fun z => ‖z‖).foldr max 0

open Classical in
/-- The corrected and scaled samples, `uhd/usrp.py` 340-357.  They are written into the signal given by the caller, `signal.view` being
no copy. -/
noncomputable def Radio.prepare (c : Radio) (x : List (List ℂ)) (num : ℕ) : Except PyErr (List (List ℂ)) := do
  let y ← correct c.txW x
  if 0 < num ∧ c.scaleTx ∧ peak y ≠ 0 then return y.map fun r => r.map fun z => z / peak y
  else return y

/-- The zero padded stream, `uhd/usrp.py` 359-376. -/
def Radio.block (c : Radio) (y : List ℂ) : List ℂ :=
  let b := List.replicate c.pre 0 ++ y ++ List.replicate c.app 0
  if b.length % 4 ≠ 0 then b ++ List.replicate (4 - b.length % 4) 0 else b

/-- The number of samples to be received, `uhd/usrp.py` 385-414. -/
def Radio.numReceive (c : Radio) (num : ℕ) : ℕ :=
  let n := max c.minFrame num
  if 0 < n then
    let m := n + (⌊c.maxDelay * c.fs⌋).toNat + (c.pre + c.app)
    m + (4 - m % 4)
  else
    let l := c.block (List.replicate num 0)
    l.length + 4 - l.length % 4

/-- The delays of transmission and reception, `uhd/usrp.py` 380-381. -/
def Radio.delays (c : Radio) : ℚ × ℚ := (max 0 (-c.delay), max 0 c.delay)

/-- A sample of a stream at a position that need not be one of its positions. -/
def sampleAt (b : List ℂ) (q : ℚ) : ℂ := if q.den = 1 ∧ 0 ≤ q.num then b.getD q.num.toNat 0 else 0

/-- A radio whose receive ports are connected to its transmit ports with a delay of `d` seconds: sample `k` of the reception,
`rx + k / fs` seconds after the trigger, is the sample transmitted `d` seconds earlier, transmissions starting `tx` seconds after the
trigger. -/
def Radio.loop (c : Radio) (d : ℚ) (num : ℕ) (b : List ℂ) : List ℂ :=
  (List.range (c.numReceive num)).map fun (k : ℕ) => sampleAt b ((c.delays.2 + (k : ℚ) / c.fs - d - c.delays.1) * c.fs)

/-- The collected signals, `uhd/usrp.py` 435-440: the last of them remains, and without any the list itself, which cannot be sliced. -/
def collect (ms : List (List (List ℂ))) : Except PyErr (List (List ℂ)) :=
  match ms.getLast? with
  | none => .error .type
  | some m => .ok m

/-- `UsrpDevice._download`, `uhd/usrp.py` 430-453: the samples without the padding, corrected. -/
noncomputable def Radio.download (c : Radio) (ms : List (List (List ℂ))) : Except PyErr (List (List ℂ)) := do
  let m ← collect ms
  correct c.rxW (m.map fun r => (r.take (r.length - c.app)).drop c.pre)

theorem peak_spec (x : List (List ℂ)) : 0 ≤ peak x ∧ (∀ r ∈ x, ∀ z ∈ r, ‖z‖ ≤ peak x) ∧
    (peak x ≠ 0 → ∃ r ∈ x, ∃ z ∈ r, ‖z‖ = peak x) := by
  have h : ∀ l : List ℂ, 0 ≤ (l.map fun z => ‖z‖).foldr max 0 ∧ (∀ z ∈ l, ‖z‖ ≤ (l.map fun z => ‖z‖).foldr max 0) ∧
      ((l.map fun z => ‖z‖).foldr max 0 ≠ 0 → ∃ z ∈ l, ‖z‖ = (l.map fun z => ‖z‖).foldr max 0) := by
    intro l
    induction l with
    | nil => exact ⟨le_refl _, by simp, fun h => absurd rfl h⟩
    | cons a l ih =>
      simp only [List.map_cons, List.foldr_cons]
      refine ⟨le_max_of_le_right ih.1, ?_, ?_⟩
      · intro z hz
        rcases List.mem_cons.mp hz with rfl | hz
        · exact le_max_left _ _
        · exact le_max_of_le_right (ih.2.1 z hz)
      · intro hne
        rcases le_total ((l.map fun z => ‖z‖).foldr max 0) ‖a‖ with hle | hle
        · exact ⟨a, List.mem_cons_self, (max_eq_left hle).symm⟩
        · rw [max_eq_right hle] at hne ⊢
          obtain ⟨z, hz, hz'⟩ := ih.2.2 hne
          exact ⟨z, List.mem_cons_of_mem _ hz, hz'⟩
  unfold peak
  obtain ⟨h1, h2, h3⟩ := h x.flatten
  refine ⟨h1, fun r hr z hz => h2 z (List.mem_flatten.mpr ⟨r, hr, hz⟩), ?_⟩
  intro hne
  obtain ⟨z, hz, hz'⟩ := h3 hne
  obtain ⟨r, hr, hzr⟩ := List.mem_flatten.mp hz
  exact ⟨r, hr, z, hzr, hz'⟩

/-- **C112, scaling.** Uploaded samples are the corrected samples times a common positive factor.  If scaling is enabled and the
signal is not silent, they have a greatest magnitude of exactly one; without scaling they are the corrected samples.  Numbers of
streams that do not fit the calibration raise `ValueError`. -/
theorem C112_scale (c : Radio) (x : List (List ℂ)) (num : ℕ) (hx : ∀ r ∈ x, r.length = num) :
    (∀ y, c.prepare x num = .ok y → ∃ v, correct c.txW x = .ok v ∧
      (∃ a : ℝ, 0 < a ∧ y = v.map fun r => r.map fun z => (a : ℂ) * z) ∧
      (c.scaleTx = false → y = v) ∧
      (c.scaleTx = true → (∃ r ∈ v, ∃ z ∈ r, z ≠ 0) →
        (∀ r ∈ y, ∀ z ∈ r, ‖z‖ ≤ 1) ∧ ∃ r ∈ y, ∃ z ∈ r, ‖z‖ = 1)) ∧
      ∀ w, c.txW = some w → x.length ≠ w.length → c.prepare x num = .error .value := by
  constructor
  · intro y hy
    cases hv : correct c.txW x with
    | error e =>
      unfold Radio.prepare at hy
      rw [hv] at hy
      cases hy
    | ok v =>
      have hvl : ∀ r ∈ v, r.length = num := by
        unfold correct at hv
        cases hw : c.txW with
        | none => rw [hw] at hv; cases hv; exact hx
        | some w =>
          rw [hw] at hv
          simp only at hv
          by_cases hl : x.length ≠ w.length
          · rw [if_pos hl] at hv; cases hv
          · rw [if_neg hl] at hv
            cases hv
            intro r hr
            rw [List.mem_iff_getElem] at hr
            obtain ⟨i, hi, rfl⟩ := hr
            rw [List.getElem_zipWith, List.length_map]
            exact hx _ (List.getElem_mem _)
      refine ⟨v, rfl, ?_⟩
      obtain ⟨p1, p2, p3⟩ := peak_spec v
      by_cases hc : 0 < num ∧ c.scaleTx = true ∧ peak v ≠ 0
      · have hy' : v.map (fun r => r.map fun z => z / (peak v : ℂ)) = y := by
          unfold Radio.prepare at hy
          rw [hv] at hy
          have : (if 0 < num ∧ c.scaleTx = true ∧ peak v ≠ 0 then
            (Except.ok (v.map fun r => r.map fun z => z / (peak v : ℂ)) : Except PyErr _) else .ok v) = .ok y := hy
          rw [if_pos hc] at this
          exact Except.ok.inj this
        have hp : 0 < peak v := lt_of_le_of_ne p1 (Ne.symm hc.2.2)
        refine ⟨⟨(peak v)⁻¹, inv_pos.mpr hp, ?_⟩, ?_, ?_⟩
        · rw [← hy']
          apply List.map_congr_left
          intro r _
          apply List.map_congr_left
          intro z _
          rw [Complex.ofReal_inv, div_eq_inv_mul]
        · intro h; rw [hc.2.1] at h; cases h
        · intro _ _
          have hn : ∀ z : ℂ, ‖z / (peak v : ℂ)‖ = ‖z‖ / peak v := by
            intro z
            rw [norm_div, Complex.norm_real, Real.norm_eq_abs, abs_of_pos hp]
          constructor
          · intro r hr z hz
            rw [← hy', List.mem_map] at hr
            obtain ⟨r', hr', rfl⟩ := hr
            rw [List.mem_map] at hz
            obtain ⟨z', hz', rfl⟩ := hz
            rw [hn]
            exact (div_le_one hp).mpr (p2 r' hr' z' hz')
          · obtain ⟨r, hr, z, hz, hmax⟩ := p3 hc.2.2
            refine ⟨r.map fun z => z / (peak v : ℂ), ?_, z / peak v, List.mem_map_of_mem hz, ?_⟩
            · rw [← hy']; exact List.mem_map_of_mem hr
            · rw [hn, hmax, div_self hc.2.2]
      · have hy' : v = y := by
          unfold Radio.prepare at hy
          rw [hv] at hy
          have : (if 0 < num ∧ c.scaleTx = true ∧ peak v ≠ 0 then
            (Except.ok (v.map fun r => r.map fun z => z / (peak v : ℂ)) : Except PyErr _) else .ok v) = .ok y := hy
          rw [if_neg hc] at this
          exact Except.ok.inj this
        refine ⟨⟨1, one_pos, ?_⟩, fun _ => hy'.symm, ?_⟩
        · rw [← hy']
          simp
        · rintro hs ⟨r, hr, z, hz, hne⟩
          exfalso
          apply hc
          refine ⟨?_, hs, ?_⟩
          · rw [← hvl r hr]
            exact List.length_pos_of_mem hz
          · intro h0
            have := p2 r hr z hz
            rw [h0] at this
            exact hne (norm_le_zero_iff.mp this)
  · intro w hw hl
    unfold Radio.prepare
    rw [hw]
    unfold correct
    simp only
    rw [if_pos hl]
    rfl

/-- **C112, delays.** A positive delay is waited for before receiving, a negative one before transmitting. -/
theorem C112_delays (c : Radio) : 0 ≤ c.delays.1 ∧ 0 ≤ c.delays.2 ∧ c.delays.2 - c.delays.1 = c.delay := by
  unfold Radio.delays
  refine ⟨le_max_left _ _, le_max_left _ _, ?_⟩
  rcases le_total c.delay 0 with h | h
  · rw [max_eq_left h, max_eq_right (by linarith)]; ring
  · rw [max_eq_right h, max_eq_left (by linarith)]; ring

theorem block_shape (c : Radio) (y : List ℂ) :
    ∃ j, c.block y = List.replicate c.pre 0 ++ y ++ List.replicate (c.app + j) 0 ∧
      (c.block y).length % 4 = 0 ∧ j < 4 := by
  unfold Radio.block
  simp only
  set b := List.replicate c.pre 0 ++ y ++ List.replicate c.app 0 with hb
  by_cases h : b.length % 4 ≠ 0
  · refine ⟨4 - b.length % 4, ?_, ?_, by omega⟩
    · rw [if_pos h, hb, List.append_assoc _ _ (List.replicate (4 - _) 0), List.replicate_append_replicate]
    · rw [if_pos h, List.length_append, List.length_replicate]; omega
  · refine ⟨0, ?_, ?_, by omega⟩
    · rw [if_neg h, Nat.add_zero]
    · rw [if_neg h]; omega

theorem numReceive_spec (c : Radio) (num : ℕ) :
    c.numReceive num % 4 = 0 ∧ c.pre + c.app + max c.minFrame num + (if 0 < max c.minFrame num then
      (⌊c.maxDelay * c.fs⌋).toNat else 0) < c.numReceive num := by
  unfold Radio.numReceive
  simp only
  by_cases h : 0 < max c.minFrame num
  · rw [if_pos h, if_pos h]
    constructor <;> omega
  · rw [if_neg h, if_neg h]
    obtain ⟨j, hj, h4, _⟩ := block_shape c (List.replicate num 0)
    rw [h4]
    have hl : (c.block (List.replicate num 0)).length = c.pre + num + (c.app + j) := by
      rw [hj]; simp
    rw [hl] at h4 ⊢
    have : max c.minFrame num = 0 := by omega
    constructor <;> omega

theorem sampleAt_nat (b : List ℂ) (k : ℕ) : sampleAt b (k : ℚ) = b.getD k 0 := by
  unfold sampleAt
  rw [if_pos ⟨Rat.den_natCast k, by rw [Rat.num_natCast]; exact Int.natCast_nonneg k⟩, Rat.num_natCast, Int.toNat_natCast]

/-- **C112.** A device whose receive ports are connected to its transmit ports, with a delay it was calibrated for, receives exactly
the samples it uploaded, followed by silence, corrected by its receive weights; whatever the signal's length and the numbers of
zeros.  At least a frame of every receiver and the whole transmission are received, and the maximum delay besides. -/
theorem C112_loop_partial (c : Radio) (hfs : 0 < c.fs) (y : List (List ℂ)) (num : ℕ) (hy : ∀ r ∈ y, r.length = num) :
    c.download [y.map fun r => c.loop c.delay num (c.block r)] =
        correct c.rxW (y.map fun r => r ++ List.replicate (c.numReceive num - c.app - c.pre - num) 0) ∧
      max c.minFrame num ≤ c.numReceive num - c.app - c.pre ∧
      (0 < max c.minFrame num →
        max c.minFrame num + (⌊c.maxDelay * c.fs⌋).toNat ≤ c.numReceive num - c.app - c.pre) := by
  obtain ⟨_, hn⟩ := numReceive_spec c num
  have hn' : c.pre + c.app + max c.minFrame num < c.numReceive num := by
    split_ifs at hn <;> omega
  refine ⟨?_, by omega, fun h => by rw [if_pos h] at hn; omega⟩
  show correct c.rxW ((y.map fun r => c.loop c.delay num (c.block r)).map
    fun r => (r.take (r.length - c.app)).drop c.pre) = _
  rw [List.map_map]
  congr 1
  apply List.map_congr_left
  intro r hr
  have hr' := hy r hr
  simp only [Function.comp]
  have hloop : c.loop c.delay num (c.block r) = (List.range (c.numReceive num)).map fun (k : ℕ) => (c.block r).getD k 0 := by
    unfold Radio.loop
    apply List.map_congr_left
    intro k _
    have : (c.delays.2 + (k : ℚ) / c.fs - c.delay - c.delays.1) * c.fs = (k : ℚ) := by
      have := (C112_delays c).2.2
      have h2 : c.delays.2 = c.delay + c.delays.1 := by linarith
      rw [h2]
      field_simp
      ring
    rw [this, sampleAt_nat]
  rw [hloop]
  obtain ⟨j, hj, _, _⟩ := block_shape c r
  rw [hj]
  apply List.ext_getElem
  · simp only [List.length_drop, List.length_take, List.length_map, List.length_range, List.length_append, List.length_replicate]
    omega
  · intro i h1 h2
    rw [List.getElem_drop, List.getElem_take, List.getElem_map, List.getElem_range]
    simp only [List.length_drop, List.length_take, List.length_map, List.length_range] at h1
    by_cases hi : i < num
    · rw [List.getElem_append_left (by omega), List.getD_eq_getElem?_getD, List.append_assoc,
        List.getElem?_append_right (by simp), List.length_replicate, Nat.add_sub_cancel_left,
        List.getElem?_append_left (by omega), List.getElem?_eq_getElem (by omega), Option.getD_some]
    · rw [List.getElem_append_right (by omega), List.getElem_replicate, List.getD_eq_getElem?_getD, List.append_assoc,
        List.getElem?_append_right (by simp), List.length_replicate, Nat.add_sub_cancel_left,
        List.getElem?_append_right (by omega), List.getElem?_replicate]
      split_ifs <;> rfl

-- Two streams of three samples, with a negative delay and weights at the receive ports.
example : (⟨2, 5, 3, 4, 3, true, none, some [2, 3], -7⟩ : Radio).download [[[1, 2, 3], [4, 5, 6]].map fun r =>
      (⟨2, 5, 3, 4, 3, true, none, some [2, 3], -7⟩ : Radio).loop (-7) 3
        ((⟨2, 5, 3, 4, 3, true, none, some [2, 3], -7⟩ : Radio).block r)] =
    .ok [[2, 4, 6] ++ List.replicate 9 0, [12, 15, 18] ++ List.replicate 9 0] := by
  have h := (C112_loop_partial ⟨2, 5, 3, 4, 3, true, none, some [2, 3], -7⟩ (by norm_num) [[1, 2, 3], [4, 5, 6]] 3
    (by intro r hr; simp only [List.mem_cons, List.not_mem_nil, or_false] at hr; rcases hr with rfl | rfl <;> rfl)).1
  rw [h]
  have hn : (⟨2, 5, 3, 4, 3, true, none, some [2, 3], -7⟩ : Radio).numReceive 3 = 20 := by
    unfold Radio.numReceive
    simp only
    norm_num
    rfl
  rw [hn]
  unfold correct
  norm_num [List.replicate]

/-- **C112, false part.** If several signals are collected, only the last one is received; if none is, `TypeError` is raised. -/
theorem C112_collect_fails (c : Radio) (ms : List (List (List ℂ))) (m : List (List ℂ)) :
    c.download (ms ++ [m]) = c.download [m] ∧ c.download [] = .error .type := by
  refine ⟨?_, rfl⟩
  unfold Radio.download collect
  rw [List.getLast?_append]
  rfl

/-! ## The device as physical device -/

/-- A USRP device as the environment of C111, apart from the remote host: uploading prepares the samples. -/
noncomputable def env (c : Radio) (carrier : ℚ) (ports num : ℕ) : HwDevice.Env (List (List ℂ)) where
  fs := c.fs
  carrier := carrier
  tx := ports
  rx := ports
  upload := fun _ x =>
    match c.prepare x.streams num with
    | .ok y => (y, ⟨c.fs, carrier, y⟩)
    | .error _ => ([], ⟨c.fs, carrier, []⟩)
  trigger := id
  download := fun h => ⟨c.fs, carrier, h⟩
  remove := fun _ x => .ok x
  weights := c.txW
  lowpass := fun _ x => x
  resample := fun _ x => x
  add := fun a _ => a

/-- **C112, false part.** Direct transmissions are corrected twice, once by `trigger_direct` and once by the upload: the transmitted
samples are those given times the squares of the weights. -/
theorem C112_twice_fails (c : Radio) (carrier : ℚ) (num : ℕ) (w : List ℂ) (hw : c.txW = some w) (hs : c.scaleTx = false)
    (s : HwDevice.State (List (List ℂ))) (r : ℕ) (h1 : (s.memory r).carrier = carrier) (h2 : (s.memory r).rate = c.fs)
    (h3 : (s.memory r).streams.length = w.length) :
    (triggerDirect (env c carrier w.length num) s r true).1.hw = scale (w.map (· ^ 2)) (s.memory r).streams := by
  have h := (HwDevice.direct_weights (env c carrier w.length num) s r w hw h1 h2 h3).2
  rw [h]
  have hp : c.prepare (scale w (s.memory r).streams) num = .ok (scale (w.map (· ^ 2)) (s.memory r).streams) := by
    unfold Radio.prepare
    rw [hw]
    have : correct (some w) (scale w (s.memory r).streams) = .ok (scale (w.map (· ^ 2)) (s.memory r).streams) := by
      unfold correct
      simp only
      rw [if_neg (by rw [HwDevice.scale_length _ _ h3]; simp)]
      have h' := HwDevice.scale_pow w 1 (s.memory r).streams
      simp only [pow_one, List.map_id'] at h'
      exact congrArg _ h'
    rw [this]
    show (if 0 < num ∧ c.scaleTx = true ∧ peak _ ≠ 0 then _ else (Except.ok _ : Except PyErr _)) = _
    rw [if_neg (by rw [hs]; rintro ⟨_, h, _⟩; cases h)]
  show (match c.prepare (scale w (s.memory r).streams) num with
    | .ok y => ((y, ⟨c.fs, carrier, y⟩) : List (List ℂ) × Sig)
    | .error _ => ([], ⟨c.fs, carrier, []⟩)).1 = _
  rw [hp]

/-- `UsrpDevice._upload` with the caller's signal, `uhd/usrp.py` 340-354: what it contains afterwards. -/
noncomputable def Radio.leaves (c : Radio) (x : List (List ℂ)) (num : ℕ) : List (List ℂ) :=
  match c.prepare x num with
  | .ok y => y
  | .error _ => x

/-- **C112, false part.** Uploads change the transmitted signal: with scaling, a transmission reported as the one it was generated
from has been divided by its greatest magnitude. -/
theorem C112_inplace_fails (c : Radio) (hs : c.scaleTx = true) (hw : c.txW = none) (a : ℝ) (ha : 1 < a) :
    c.leaves [[(a : ℂ)]] 1 = [[1]] ∧ ([[(a : ℂ)]] : List (List ℂ)) ≠ [[1]] := by
  have h0 : 0 < a := by linarith
  constructor
  · unfold Radio.leaves Radio.prepare
    rw [hw]
    have hp : peak [[(a : ℂ)]] = a := by
      unfold peak
      simp [abs_of_pos h0, h0.le]
    show (match (if 0 < 1 ∧ c.scaleTx = true ∧ peak [[(a : ℂ)]] ≠ 0 then
      (Except.ok ([[(a : ℂ)]].map fun r => r.map fun z => z / (peak [[(a : ℂ)]] : ℂ)) : Except PyErr (List (List ℂ)))
      else .ok [[(a : ℂ)]]) with | .ok y => y | .error _ => [[(a : ℂ)]]) = _
    rw [if_pos ⟨one_pos, hs, by rw [hp]; exact h0.ne'⟩, hp]
    simp [h0.ne']
  · intro h
    simp only [List.cons.injEq, and_true] at h
    have : a = 1 := by exact_mod_cast h
    linarith

/-- `UsrpSystem._trigger_direct`, `uhd/system.py` 69-81, for one device: `calibrate` is not used. -/
noncomputable def systemDirect (c : Radio) (carrier : ℚ) (ports num : ℕ) (h : List (List ℂ)) (x : Sig) (_calibrate : Bool) : Sig :=
  let e := env c carrier ports num
  e.download (e.trigger (e.upload h x).1)

/-- **C112, false part.** Triggering the system directly calibrates although told not to. -/
theorem C112_system_fails (c : Radio) (carrier : ℚ) (w : List ℂ) (hw : c.txW = some w) (hs : c.scaleTx = false) (num : ℕ)
    (h : List (List ℂ)) (x : Sig) (hx : x.streams.length = w.length) :
    (systemDirect c carrier w.length num h x false).streams = scale w x.streams := by
  have hp : c.prepare x.streams num = .ok (scale w x.streams) := by
    unfold Radio.prepare
    rw [hw]
    have : correct (some w) x.streams = .ok (scale w x.streams) := by
      unfold correct
      simp only
      rw [if_neg (not_not.mpr hx)]
      rfl
    rw [this]
    show (if 0 < num ∧ c.scaleTx = true ∧ peak _ ≠ 0 then _ else (Except.ok _ : Except PyErr _)) = _
    rw [if_neg (by rw [hs]; rintro ⟨_, h, _⟩; cases h)]
  show (match c.prepare x.streams num with
    | .ok y => ((y, ⟨c.fs, carrier, y⟩) : List (List ℂ) × Sig)
    | .error _ => ([], ⟨c.fs, carrier, []⟩)).1 = _
  rw [hp]

end Verif.HwUsrp
