/-
Model of `crates/wasm-shrink/src/lib.rs`.

Everything outside of the file is a parameter (`World`): the validator, the predicate and the
callback (both `FnMut`: they get the number of the call, so that they may answer differently each
time), the results of `wasm-mutate`, the random number generator's answers to `random_ratio`, and
the hash function (collisions allowed). The results of one `WasmMutate::run` are a list; the code
pulls at most ten of them from an iterator. Logging is omitted. `u32` arithmetic is on `Nat`;
`attempt` never exceeds the `u32` value `attempts` (see `Props.c37_attempt_bounded`).
-/
namespace Verif.Shrink

abbrev Wasm := List UInt8

/-- `EMPTY_WASM` (lib.rs 12-18). -/
def emptyWasm : Wasm := [0x00, 0x61, 0x73, 0x6d, 0x01, 0x00, 0x00, 0x00]

/-- What the shrinker is run with and against. -/
structure World (η : Type) where
  /-- `validate_wasm` (lib.rs 218-222) -/
  valid : Wasm → Bool
  /-- the `n`-th call of the predicate; `none` = `Err` -/
  pred : Nat → Wasm → Option Bool
  /-- the `n`-th `WasmMutate::run` on the current Wasm (lib.rs 299); `none` = `Err`, and an element
  `none` is an `Err` of the iterator -/
  mutate : Nat → Wasm → Option (List (Option Wasm))
  /-- the `n`-th `rng.random_ratio(1, 100)` (lib.rs 202) -/
  coin : Nat → Bool
  /-- `blake3::hash` (lib.rs 341) -/
  hash : Wasm → η
  /-- `on_new_smallest` (lib.rs 84), the `n`-th call; `false` = `Err` -/
  notify : Option (Nat → Wasm → Bool)
  /-- `attempts` and `allow_empty` (lib.rs 70, 77) -/
  attempts : Nat
  allowEmpty : Bool
  /-- whether `debug_assert!` is compiled in -/
  debug : Bool

/-- `ShrinkRun` (lib.rs 150-168) together with the local `current` of `run`, the number of uses of
the random number generator, and the history of calls (latest last) that the properties are about. -/
structure St (η : Type) where
  inputSize : Nat
  best : Wasm
  current : Wasm
  tested : List η
  attempt : Nat
  runs : Nat
  coins : Nat
  predLog : List (Wasm × Option Bool)
  smallest : List Wasm

/-- `ShrinkInfo` (lib.rs 388-397). -/
structure Info where
  inputSize : Nat
  outputSize : Nat
  output : Wasm
  deriving DecidableEq, Repr

/-- How a step ends: it goes on, fails with `Err` or panics (in a `debug_assert!`). -/
inductive Out (α : Type) where
  | ok (a : α)
  | err
  | panic
  /-- not a behaviour of the code: the bound on the iterations of the model was too small -/
  | fuel

variable {η : Type} [DecidableEq η] (W : World η)

/-- `ShrinkRun::new` (lib.rs 171-183) and `let mut current = self.best.clone()` (lib.rs 248). -/
def init (input : Wasm) : St η :=
  { inputSize := input.length, best := input, current := input, tested := [], attempt := 0,
    runs := 0, coins := 0, predLog := [], smallest := [] }

/-- Calling the predicate. -/
def callPred (w : Wasm) (s : St η) : Option Bool × St η :=
  let r := W.pred s.predLog.length w
  (r, { s with predLog := s.predLog ++ [(w, r)] })

/-- `on_new_best` (lib.rs 185-196). -/
def onNewBest (w : Wasm) (s : St η) : Out Unit × St η :=
  if W.debug ∧ ¬ (w.length < s.best.length ∨ (w = emptyWasm ∧ s.best = emptyWasm)) then (.panic, s)
  else
    match W.notify with
    | none => (.ok (), { s with best := w, attempt := 0 })
    | some f =>
      let ok := f s.smallest.length w
      let s := { s with smallest := s.smallest ++ [w] }
      if ok then (.ok (), { s with best := w, attempt := 0 }) else (.err, s)

/-- `should_accept` (lib.rs 198-203). -/
def shouldAccept (w : Wasm) (s : St η) : Bool × St η :=
  if w.length < s.current.length then (true, s)
  else (W.coin s.coins, { s with coins := s.coins + 1 })

/-- `on_new_interesting` (lib.rs 205-216). -/
def onNewInteresting (w : Wasm) (s : St η) : Out Unit × St η :=
  if W.debug ∧ ¬ s.best.length ≤ s.current.length then (.panic, s)
  else
    let s := { s with current := w }
    if s.current.length < s.best.length then onNewBest W s.current s else (.ok (), s)

/-- The loop over the mutations (lib.rs 325-364), from the `i`-th mutation on. -/
def tryMutations : Nat → List (Option Wasm) → St η → Out (Option Wasm) × St η
  | _, [], s => (.ok none, s)
  | i, m :: ms, s =>
    let s := if i > 0 then { s with attempt := s.attempt + 1 } else s
    match m with
    | none => tryMutations (i + 1) ms s
    | some w =>
      if W.hash w ∈ s.tested then tryMutations (i + 1) ms s
      else
        let s := { s with tested := W.hash w :: s.tested }
        match callPred W w s with
        | (none, s) => (.err, s)
        | (some false, s) => tryMutations (i + 1) ms s
        | (some true, s) =>
          match shouldAccept W w s with
          | (true, s) => (.ok (some w), s)
          | (false, s) => tryMutations (i + 1) ms s

/-- One iteration of the main loop (lib.rs 292-368). -/
def iteration (s : St η) : Out Unit × St η :=
  let s := { s with attempt := s.attempt + 1 }
  let r := W.mutate s.runs s.current
  let s := { s with runs := s.runs + 1 }
  match r with
  | none => (.ok (), s)
  | some mutations =>
    match mutations.take (min (W.attempts - s.attempt) 10) with
    | [] => (.ok (), s)
    | m :: ms =>
      match tryMutations W 0 (m :: ms) s with
      | (.ok none, s) => (.ok (), s)
      | (.ok (some w), s) => onNewInteresting W w s
      | (.err, s) => (.err, s)
      | (.panic, s) => (.panic, s)
      | (.fuel, s) => (.fuel, s)

/-- `finish` (lib.rs 224-230). -/
def finish (s : St η) : Info :=
  { inputSize := s.inputSize, outputSize := s.best.length, output := s.best }

/-- The main loop (lib.rs 291-371); the first argument bounds the number of iterations. -/
def mainLoop : Nat → St η → Out Info × St η
  | 0, s => (.fuel, s)
  | fuel + 1, s =>
    if s.attempt < W.attempts then
      match iteration W s with
      | (.ok (), s) => mainLoop fuel s
      | (.err, s) => (.err, s)
      | (.panic, s) => (.panic, s)
      | (.fuel, s) => (.fuel, s)
    else (.ok (finish s), s)

/-- `run` (lib.rs 232-372). -/
def run (fuel : Nat) (input : Wasm) : Out Info × St η :=
  let s : St η := init input
  if W.valid s.current = false then (.err, s)
  else
    match callPred W s.current s with
    | (none, s) => (.err, s)
    | (some false, s) => (.err, s)
    | (some true, s) =>
      match callPred W emptyWasm s with
      | (none, s) => (.err, s)
      | (some true, s) =>
        if W.allowEmpty then
          match onNewBest W emptyWasm s with
          | (.ok (), s) => (.ok (finish s), s)
          | (.err, s) => (.err, s)
          | (.panic, s) => (.panic, s)
          | (.fuel, s) => (.fuel, s)
        else (.err, s)
      | (some false, s) => mainLoop W fuel s

end Verif.Shrink
