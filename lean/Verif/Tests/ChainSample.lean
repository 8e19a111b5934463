import Verif.Proofs.OnChainTrip

/-
Concrete histories of the on-chain program, used as examples and counterexamples.
-/

namespace Hmm.OnChain.Sample

/-- Run an instruction and keep the account of a group. -/
def play (who : Nat → Bool) (s : Chain × Account) : Instr → R (Chain × Account)
  | .deposit c l h cur x y => do
    let (t, m) ← deposit s.1 c l h cur x y
    return (t, if who c.user then
      { s.2 with deposits := s.2.deposits + 1, paidX := s.2.paidX + m.x, paidY := s.2.paidY + m.y } else s.2)
  | .withdraw c l h cur n => do
    let (t, m) ← withdraw s.1 c l h cur n
    return (t, if who c.user then
      { s.2 with takenX := s.2.takenX + m.x, takenY := s.2.takenY + m.y } else s.2)
  | i => do return (← exec s.1 i, s.2)

/-- Run some instructions. -/
def plays (who : Nat → Bool) (s : Chain × Account) : List Instr → R (Chain × Account)
  | [] => .ok s
  | i :: is => do plays who (← play who s i) is

/-- Two users with 1000 X and 1000 Y each and an LP account. -/
def fund (s : Chain) : Chain :=
  { s with userX := [(1, ⟨1, 1000⟩), (2, ⟨2, 1000⟩)], userY := [(1, ⟨1, 1000⟩), (2, ⟨2, 1000⟩)],
           lp := [(1, ⟨1, 0⟩), (2, ⟨2, 0⟩)] }

/-- Instructions that set up ticks and positions. -/
def setup : List Instr := [.initializeBitmap, .initializeTick 10, .initializeTick 20, .initializeTick 25,
  .initializeTick 30, .createPosition 1 10 30, .createPosition 2 25 30, .createPosition 1 10 20]

/-- A pool at tick 20 with funded users, followed by some instructions. -/
def history (who : Nat → Bool) (is : List Instr) : R (Chain × Account) := do
  let s ← initializePool 20 0
  let s ← plays who (s, ⟨0, 0, 0, 0, 0⟩) setup
  plays who (fund s.1, s.2) is

/-- The accounts of user `n`. -/
def user (n : Nat) : Caller := ⟨n, n, n, n⟩

theorem play_tracked {who : Nat → Bool} {s t : Chain × Account} {i : Instr} (hs : Tracked 0 who s.1 s.2)
    (h : play who s i = .ok t) : Tracked 0 who t.1 t.2 := by
  cases i with
  | deposit c l u cur x y =>
    unfold play at h
    rw [bind_ok] at h; obtain ⟨⟨t', m⟩, h1, h⟩ := h
    rw [pure_ok] at h; subst h
    exact .deposit hs h1
  | withdraw c l u cur n =>
    unfold play at h
    rw [bind_ok] at h; obtain ⟨⟨t', m⟩, h1, h⟩ := h
    rw [pure_ok] at h; subst h
    exact .withdraw hs h1
  | initializeBitmap =>
    unfold play at h
    rw [bind_ok] at h; obtain ⟨t', h1, h⟩ := h
    rw [pure_ok] at h; subst h
    exact .initializeBitmap hs h1
  | initializeTick k =>
    unfold play at h
    rw [bind_ok] at h; obtain ⟨t', h1, h⟩ := h
    rw [pure_ok] at h; subst h
    exact .initializeTick hs h1
  | createPosition u l k =>
    unfold play at h
    rw [bind_ok] at h; obtain ⟨t', h1, h⟩ := h
    rw [pure_ok] at h; subst h
    exact .createPosition hs h1

theorem plays_tracked {who : Nat → Bool} {is : List Instr} : ∀ {s t : Chain × Account}, Tracked 0 who s.1 s.2 →
    plays who s is = .ok t → Tracked 0 who t.1 t.2 := by
  induction is with
  | nil => intro s t hs h; cases h; exact hs
  | cons i is ih =>
    intro s t hs h
    unfold plays at h
    rw [bind_ok] at h; obtain ⟨s', h1, h⟩ := h
    exact ih (play_tracked hs h1) h

theorem history_tracked {who : Nat → Bool} {is : List Instr} {s : Chain × Account} (h : history who is = .ok s) :
    Tracked 0 who s.1 s.2 := by
  unfold history at h
  rw [bind_ok] at h; obtain ⟨s0, h1, h⟩ := h
  rw [bind_ok] at h; obtain ⟨s1, h2, h⟩ := h
  have t1 := plays_tracked (s := (s0, ⟨0, 0, 0, 0, 0⟩)) (.init 20 h1) h2
  exact plays_tracked (s := (fund s1.1, s1.2))
    (.external t1 ⟨rfl, rfl, rfl, rfl, le_rfl, le_rfl, le_rfl⟩) h

/-- A test of the state after a history; false if the history fails. -/
def holds (who : Nat → Bool) (is : List Instr) (p : Chain → Account → Bool) : Bool :=
  match history who is with
  | .ok s => p s.1 s.2
  | .error _ => false

theorem holds_exists {who : Nat → Bool} {is : List Instr} {p : Chain → Account → Bool} (h : holds who is p = true) :
    ∃ s a, Tracked 0 who s a ∧ p s a = true := by
  unfold holds at h
  split at h
  · next s hs => exact ⟨_, _, history_tracked hs, h⟩
  · cases h

theorem holds_reachable {is : List Instr} {p : Chain → Account → Bool} (h : holds (fun _ => true) is p = true) :
    ∃ s a, Reachable 0 s ∧ p s a = true := by
  obtain ⟨s, a, h1, h2⟩ := holds_exists h
  exact ⟨s, a, h1.reachable, h2⟩

/-- The outcome of one more instruction. -/
def outcome (is : List Instr) (i : Instr) : Option (R Unit) :=
  match history (fun _ => true) is with
  | .ok s => some (exec s.1 i >>= fun _ => .ok ())
  | .error _ => none

end Hmm.OnChain.Sample
