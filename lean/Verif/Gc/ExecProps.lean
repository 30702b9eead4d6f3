import Verif.Gc.StackProps
import Verif.Gc.ExecLemmas
/-! # C59: what the helper functions do -/
namespace Verif.Gc
open Verif.Reader Verif.Instr Verif.Instr.Spec Verif.Items Verif.Reenc Verif.Reenc.Spec Spec

variable {f : Instr.Features}

local macro "all_instr" : tactic => `(tactic|
  repeat' (first
    | exact List.forall_mem_nil _
    | refine List.forall_mem_cons.2 (And.intro trivial ?_)
    | refine List.forall_mem_cons.2 (And.intro rfl ?_)
    | refine List.forall_mem_cons.2 (And.intro (Or.inr rfl) ?_)
    | refine List.forall_mem_cons.2 (And.intro (And.intro trivial (fun h => nomatch h)) ?_)))

theorem stackCode_small (r sp : BitVec 32) : ∀ st, ∀ i ∈ stackCode r sp st, Small i
  | none => by
    all_instr
  | some st => by
    all_instr

theorem stackCode_fits (r sp : BitVec 32) : ∀ st, ∀ i ∈ stackCode r sp st, Fits f i
  | none => by
    all_instr
  | some st => by
    all_instr

theorem stackCode_expr (r sp : BitVec 32) : ∀ st, Expr ((stackCode r sp st).map tok)
  | none =>
    ⟨_, .other (.other (.other (.other (.other (.other (.other (.other .nil))))))), rfl⟩
  | some st =>
    ⟨_, .other (.other (.other (.if_ (rest := []) (.other (.other (.other (.other (.other
      (.other (.other (.other (.other (.other (.other (.other .nil)))))))))))) .nil))), rfl⟩

/-- The function that allocates the stack, without a global for the state. -/
theorem c59_stack {realloc sp : BitVec 32} {b : List UInt8}
    (h : stackFunction realloc sp none = .ok b) : Does f b [] fun ops => ∀ (host : Host) (w : World),
      exec host none ops ⟨w, [], []⟩ = outcome (stackEffect host realloc sp w) := by
  refine function_read h (by decide) (by intro e he; cases he) trivial
    (fun ds hd => by cases hd; rfl) (stackCode_small realloc sp none)
    (stackCode_fits realloc sp none) (stackCode_expr realloc sp none) ?_
  intro host w
  rw [show (stackCode realloc sp none).map readAs = [.i32Const 0, .i32Const 0, .i32Const 8,
    .i32Const 65536, .idx .call realloc, .i32Const 65536, .plain .i32Add, .idx .globalSet sp,
    .end_] from rfl]
  rw [exec_const, exec_const, exec_const, exec_const, exec_call]
  unfold stackEffect
  cases host.call realloc w 0 0 8 65536 with
  | none => rfl
  | some p =>
    dsimp only
    rw [exec_const, exec_add, exec_gset, exec_end, exec_nil]
    rfl

namespace ExecSample
def isOk : Except Fail (List UInt8) → Bool
  | .ok _ => true
  | .error _ => false

theorem isOk_ok {x : Except Fail (List UInt8)} (h : isOk x = true) : ∃ b, x = .ok b := by
  cases x with
  | ok b => exact ⟨b, rfl⟩
  | error e => cases h

/-- Function 3 returns 1048576 and counts in global 9; the memory cannot have more than 20 pages. -/
def host : Host where
  call i w _ _ _ _ := if i = 3 then some (w.set 9 (w.globals 9 + 1), 1048576) else none
  canGrow p n := decide (p + n.toNat ≤ 20)

def world : World := { globals := fun _ => 0, pages := 17 }
end ExecSample

open ExecSample in
/-- There is such a body, and the stack pointer becomes 0x110000. -/
example : (∃ b, stackFunction 3 1 none = .ok b ∧ Does f b [] fun ops => ∀ (host : Host) (w : World),
      exec host none ops ⟨w, [], []⟩ = outcome (stackEffect host 3 1 w)) ∧
    (stackEffect host 3 1 world).map (·.globals 1) = some 0x110000 :=
  ⟨have ⟨b, hb⟩ := isOk_ok (show isOk (stackFunction 3 1 none) = true by decide +kernel);
    ⟨b, hb, c59_stack hb⟩, by decide +kernel⟩

/-- The same with a global for the state. -/
theorem c59_lazy {realloc sp st : BitVec 32} {b : List UInt8}
    (h : stackFunction realloc sp (some st) = .ok b) :
    Does f b [] fun ops => ∀ (host : Host) (w : World),
      exec host none ops ⟨w, [], []⟩ = outcome (lazyEffect host realloc sp st w) := by
  refine function_read h (by decide) (by intro e he; cases he) trivial
    (fun ds hd => by cases hd; rfl) (stackCode_small realloc sp (some st))
    (stackCode_fits realloc sp (some st)) (stackCode_expr realloc sp (some st)) ?_
  intro host w
  rw [show (stackCode realloc sp (some st)).map readAs = [.idx .globalGet st, .i32Const 0,
    .plain .i32Eq, .block .if_ .empty, .i32Const 1, .idx .globalSet st, .i32Const 0, .i32Const 0,
    .i32Const 8, .i32Const 65536, .idx .call realloc, .i32Const 65536, .plain .i32Add,
    .idx .globalSet sp, .i32Const 2, .idx .globalSet st, .end_, .end_] from rfl]
  rw [exec_gget, exec_const, exec_eq, exec_if]
  unfold lazyEffect
  by_cases h0 : w.globals st = 0
  · rw [if_pos h0, if_neg (by simp [h0, truth]), exec_const, exec_gset, exec_const, exec_const,
      exec_const, exec_const, exec_call]
    unfold stackEffect
    cases host.call realloc (w.set st 1) 0 0 8 65536 with
    | none => rfl
    | some p =>
      dsimp only
      rw [exec_const, exec_add, exec_gset, exec_const, exec_gset, exec_end, exec_end, exec_nil]
      rfl
  · rw [if_neg h0, if_pos (by rw [truth, decide_eq_false h0]; rfl), skip_const, skip_idx,
      skip_const, skip_const, skip_const, skip_const, skip_idx, skip_const, skip_plain, skip_idx, skip_const, skip_idx,
      skip_end, exec_end, exec_nil]
    rfl

/-- The allocation is done once: neither a call from within `realloc` nor a later one does anything
unless the state is reset. -/
theorem c59_once {host : Host} {realloc sp st : BitVec 32} {w w' : World}
    (h : lazyEffect host realloc sp st w = some w') :
    w'.globals st ≠ 0 ∧ lazyEffect host realloc sp st w' = some w' ∧
    lazyEffect host realloc sp st (w.set st 1) = some (w.set st 1) := by
  have h1 : w'.globals st ≠ 0 := by
    unfold lazyEffect at h
    split at h
    · cases hs : stackEffect host realloc sp (w.set st 1) with
      | none => rw [hs] at h; cases h
      | some u => rw [hs] at h; cases h; simp [World.set]
    · next h0 => cases h; exact h0
  refine ⟨h1, ?_, ?_⟩
  · unfold lazyEffect; rw [if_neg h1]
  · unfold lazyEffect; rw [if_neg (by simp [World.set])]

open ExecSample in
/-- Two calls in a row allocate once. -/
example : (∃ b, stackFunction 3 1 (some 2) = .ok b ∧
      Does f b [] fun ops => ∀ (host : Host) (w : World),
        exec host none ops ⟨w, [], []⟩ = outcome (lazyEffect host 3 1 2 w)) ∧
    (lazyEffect host 3 1 2 world).map (fun w => (w.globals 1, w.globals 2, w.globals 9)) =
      some (0x110000, 2, 1) ∧
    ((lazyEffect host 3 1 2 world).bind (lazyEffect host 3 1 2)).map
      (fun w => (w.globals 1, w.globals 2, w.globals 9)) = some (0x110000, 2, 1) :=
  ⟨have ⟨b, hb⟩ := isOk_ok (show isOk (stackFunction 3 1 (some 2)) = true by decide +kernel);
    ⟨b, hb, c59_lazy hb⟩, by decide +kernel, by decide +kernel⟩

theorem reallocCode_small : ∀ i ∈ reallocCode, Small i := by
  all_instr

theorem reallocCode_fits : ∀ i ∈ reallocCode, Fits f i := by
  all_instr

theorem reallocCode_expr : Expr (reallocCode.map tok) :=
  ⟨_, .other (.other (.other (.if_ (.other .nil) (.other (.other (.other (.if_ (.other .nil)
    (.other (.other (.other (.if_ (.other .nil) (.other (.other (.other (.other (.other
      (.if_ (.other .nil) (.other (.other (.other .nil)))))))))))))))))))), rfl⟩

/-- `realloc_via_memory_grow(a, b, c, d)`: one new page if `a = b = 0` and `d` is its size, and a trap
otherwise. -/
theorem c59_realloc {b : List UInt8} (h : reallocFunction = .ok b) :
    Does f b [(1, .i32)] fun ops => ∀ (host : Host) (w : World) (a0 a1 a2 a3 : BitVec 32),
      w.pages < 65536 →
      exec host none ops ⟨w, [], [a0, a1, a2, a3, 0]⟩ =
        if a0 = 0 ∧ a1 = 0 ∧ a3 = 65536 ∧ host.canGrow w.pages 1 = true then
          .done ⟨{ w with pages := w.pages + 1 }, [BitVec.ofNat 32 (w.pages * 65536)],
            [a0, a1, a2, a3, BitVec.ofNat 32 w.pages]⟩
        else .trap := by
  refine function_read h (by decide) ?_ ⟨by decide, trivial⟩ ?_ reallocCode_small
    reallocCode_fits reallocCode_expr ?_
  · intro e he
    rw [List.mem_singleton.1 he]
    exact trivial
  · intro ds hd
    cases hd with
    | cons h1 h2 =>
      cases h2
      obtain ⟨h3, h4, -⟩ := h1
      next d =>
      obtain ⟨c, t⟩ := d
      cases t <;> first | (exact h4.elim) | skip
      cases h3
      rfl
  · intro host w a0 a1 a2 a3 hp
    rw [show reallocCode.map readAs = [.i32Const 0, .idx .localGet 0, .plain .i32Ne,
      .block .if_ .empty, .plain .unreachable, .end_, .i32Const 0, .idx .localGet 1, .plain .i32Ne,
      .block .if_ .empty, .plain .unreachable, .end_, .i32Const 65536, .idx .localGet 3,
      .plain .i32Ne, .block .if_ .empty, .plain .unreachable, .end_, .i32Const 1, .memoryGrow 0,
      .idx .localTee 4, .i32Const (-1), .plain .i32Eq, .block .if_ .empty, .plain .unreachable,
      .end_, .idx .localGet 4, .i32Const 16, .plain .i32Shl, .end_] from rfl]
    have hne : ∀ a b : BitVec 32, truth (decide (a ≠ b)) = 0 ↔ b = a := by
      intro a b
      by_cases hab : a = b
      · simp [truth, hab]
      · simp [truth, hab, Ne.symm hab]
    rw [exec_const, exec_lget (v := a0) rfl, exec_ne, exec_check]
    by_cases h0 : a0 = 0
    · rw [if_pos ((hne _ _).2 h0), exec_const, exec_lget (v := a1) rfl, exec_ne, exec_check]
      by_cases h1 : a1 = 0
      · rw [if_pos ((hne _ _).2 h1), exec_const, exec_lget (v := a3) rfl, exec_ne, exec_check]
        by_cases h3 : a3 = 65536
        · rw [if_pos ((hne _ _).2 h3), exec_const, exec_grow]
          by_cases hg : host.canGrow w.pages 1 = true
          · have hm1 : BitVec.ofNat 32 w.pages ≠ -1 := by
              intro he
              have := congrArg BitVec.toNat he
              rw [BitVec.toNat_ofNat, Nat.mod_eq_of_lt (by omega)] at this
              rw [show (-1 : BitVec 32).toNat = 4294967295 from rfl] at this
              omega
            have hsh : BitVec.ofNat 32 w.pages <<< 16 = BitVec.ofNat 32 (w.pages * 65536) := by
              apply BitVec.eq_of_toNat_eq
              rw [BitVec.toNat_shiftLeft, BitVec.toNat_ofNat, BitVec.toNat_ofNat,
                Nat.shiftLeft_eq, Nat.mod_eq_of_lt (show w.pages < 2 ^ 32 by omega)]
            rw [if_pos hg, if_pos ⟨h0, h1, h3, hg⟩, exec_tee (by show 4 < 5; decide), exec_const,
              exec_eq, exec_check, if_pos (by rw [truth, decide_eq_false hm1]; rfl),
              exec_lget (v := BitVec.ofNat 32 w.pages) rfl, exec_const, exec_shl, exec_end,
              exec_nil, ← hsh]
            rfl
          · rw [if_neg hg, if_neg (fun h => hg h.2.2.2), exec_tee (by show 4 < 5; decide),
              exec_const, exec_eq, exec_check, if_neg (by simp [truth])]
        · rw [if_neg (fun h => h3 ((hne _ _).1 h)), if_neg (fun h => h3 h.2.2.1)]
      · rw [if_neg (fun h => h1 ((hne _ _).1 h)), if_neg (fun h => h1 h.2.1)]
    · rw [if_neg (fun h => h0 ((hne _ _).1 h)), if_neg (fun h => h0 h.1)]

open ExecSample in
/-- There is a body, and page 17 is got. -/
example : ∃ b, reallocFunction = .ok b ∧ Does f b [(1, .i32)] fun ops =>
    exec host none ops ⟨world, [], [0, 0, 8, 65536, 0]⟩ =
      .done ⟨{ world with pages := 18 }, [0x110000], [0, 0, 8, 65536, 17]⟩ := by
  obtain ⟨b, hb⟩ := isOk_ok (show isOk reallocFunction = true by decide +kernel)
  refine ⟨b, hb, fun q hq => ?_⟩
  obtain ⟨ops, s, h1, h2, h3, h4⟩ := c59_realloc (f := f) hb q hq
  exact ⟨ops, s, h1, h2, h3, (h4 host world 0 0 8 65536 (by decide)).trans rfl⟩

end Verif.Gc
