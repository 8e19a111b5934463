import Verif.Proofs.WorldSums

/-
Concrete histories of a ledger with several pools, used as examples and counterexamples.
-/

namespace Hmm.OnChain.World.Sample

/-- An instruction of the program, or of the token program with its signer. -/
inductive Act where
  | program (i : Instr)
  | token (who : Nat) (i : TokenInstr)

/-- One step. -/
def act (w : World) : Act → R World
  | .program i => w.exec i
  | .token who i => w.tokenExec who i

/-- Some steps. -/
def acts (w : World) : List Act → R World
  | [] => .ok w
  | a :: as => do acts (← act w a) as

theorem act_step {w v : World} {a : Act} (h : act w a = .ok v) : Step w v := by
  cases a with
  | program i => exact .program i h
  | token who i => exact .token who i h

theorem steps_head {w v u : World} (h : Step w v) (g : Steps v u) : Steps w u := by
  induction g with
  | refl => exact .tail .refl h
  | tail _ hs ih => exact .tail ih hs

theorem acts_steps {as : List Act} : ∀ {w v : World}, acts w as = .ok v → Steps w v := by
  induction as with
  | nil => intro w v h; cases h; exact .refl
  | cons a as ih =>
    intro w v h
    unfold acts at h
    rw [bind_ok] at h; obtain ⟨u, h1, h⟩ := h
    exact steps_head (act_step h1) (ih h)

theorem steps_reachable {w v : World} (h : Steps w v) (hw : Reachable w) : Reachable v := by
  induction h with
  | refl => exact hw
  | tail _ hs ih => exact .step ih hs

/-- A test of the state after some steps from the empty ledger; false if a step fails. -/
def holds (as : List Act) (p : World → Bool) : Bool :=
  match acts ⟨[], [], []⟩ as with
  | .ok w => p w
  | .error _ => false

theorem holds_reachable {as : List Act} {p : World → Bool} (h : holds as p = true) : ∃ w, Reachable w ∧ p w = true := by
  unfold holds at h
  split at h
  · next w hw => exact ⟨w, steps_reachable (acts_steps hw) .empty, h⟩
  · cases h

/-- Accounts of user `n` for X, Y and the LP tokens of the pools 100, 200 and 300: `10 n + 1` to `10 n + 5`. -/
def accountsOf (n : Nat) : List Act :=
  [.token n (.createToken (10 * n + 1) 1 (.user n)), .token n (.createToken (10 * n + 2) 2 (.user n)),
   .token n (.createToken (10 * n + 3) 100 (.user n)), .token n (.createToken (10 * n + 4) 200 (.user n)),
   .token n (.createToken (10 * n + 5) 300 (.user n)),
   .token 9 (.mintTo 1 (.key (10 * n + 1)) 1000), .token 9 (.mintTo 2 (.key (10 * n + 2)) 1000)]

/-- The mints 1 and 2, issued by user 9, the LP mints of three pools, of which the first can be frozen by user 9, and
the accounts of users 1 and 2. -/
def base : List Act :=
  [.token 9 (.createMint 1 (some (.user 9)) none), .token 9 (.createMint 2 (some (.user 9)) none),
   .token 9 (.createMint 100 (some (.pool 100)) (some (.user 9))), .token 9 (.createMint 200 (some (.pool 200)) none),
   .token 9 (.createMint 300 (some (.pool 300)) none)] ++ accountsOf 1 ++ accountsOf 2

/-- A pool at tick 20 with bitmap, ticks and a position for each of the users. -/
def pool (lp x y : Nat) : List Act :=
  [.program (.initializePool 7 lp x y 20), .program (.initializeBitmap lp), .program (.initializeTick lp 10),
   .program (.initializeTick lp 20), .program (.initializeTick lp 25), .program (.initializeTick lp 30),
   .program (.createPosition lp 1 10 30), .program (.createPosition lp 2 25 30)]

/-- The accounts of user `n` for X, Y and the LP tokens of a pool. -/
def user (n x y lp : Nat) : Accounts := ⟨n, .key (10 * n + x), .key (10 * n + y), .key (10 * n + lp)⟩

/-- Three pools: X and Y; the LP tokens of the first and Y; its own LP tokens and Y. -/
def start : List Act := base ++ pool 100 1 2 ++ pool 200 100 2 ++ pool 300 300 2

end Hmm.OnChain.World.Sample
