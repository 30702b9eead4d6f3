import Verif.Instr.Unique
/-! Sequences of instructions and the control stack. -/
namespace Verif.Instr
open Verif.Reader Verif.Leb Verif.Framing Verif.Types Spec Enc

theorem opcode_ne_nil (o : Opcode) : o.bytes ≠ [] := by cases o <;> simp [Opcode.bytes]

theorem encode_ne_nil {i : Instr} {b : List UInt8} (h : i.encode = some b) : b ≠ [] := by
  rw [encode_eq] at h
  obtain ⟨a, -, rfl⟩ := fmap_some h
  simp [opcode_ne_nil]

theorem encodeSeq_cons {i : Instr} {is : List Instr} {b : List UInt8}
    (h : encodeSeq (i :: is) = some b) :
    ∃ bi bs, i.encode = some bi ∧ encodeSeq is = some bs ∧ b = bi ++ bs := by
  unfold encodeSeq at h
  cases hi : i.encode with
  | none => simp [hi] at h
  | some bi =>
    cases hs : encodeSeq is with
    | none => simp [hi, hs] at h
    | some bs =>
      simp only [hi, hs, Option.bind_eq_bind, Option.bind_some, Option.pure_def,
        Option.some.injEq] at h
      exact ⟨bi, bs, rfl, rfl, h.symm⟩

theorem encodeSeq_inj : ∀ {is js : List Instr} {b : List UInt8}, (∀ i ∈ is, Unambiguous i) →
    (∀ j ∈ js, Unambiguous j) → encodeSeq is = some b → encodeSeq js = some b → is = js
  | [], [], _, _, _, _, _ => rfl
  | [], j :: js, _, _, _, h1, h2 => by
    obtain ⟨bj, bs, hj, -, hb⟩ := encodeSeq_cons h2
    obtain rfl := Option.some.inj h1
    exact absurd (List.append_eq_nil_iff.1 hb.symm).1 (encode_ne_nil hj)
  | i :: is, [], _, _, _, h1, h2 => by
    obtain ⟨bj, bs, hj, -, hb⟩ := encodeSeq_cons h1
    obtain rfl := Option.some.inj h2
    exact absurd (List.append_eq_nil_iff.1 hb.symm).1 (encode_ne_nil hj)
  | i :: is, j :: js, b, u1, u2, h1, h2 => by
    obtain ⟨bi, bs, hi, hs, rfl⟩ := encodeSeq_cons h1
    obtain ⟨bj, bs', hj, hs', hb⟩ := encodeSeq_cons h2
    obtain ⟨rfl, rfl⟩ := prefix_free (u1 i (List.mem_cons_self ..)) (u2 j (List.mem_cons_self ..))
      hi hj hb
    rw [encodeSeq_inj (fun x hx => u1 x (List.mem_cons_of_mem _ hx))
      (fun x hx => u2 x (List.mem_cons_of_mem _ hx)) hs hs']

/-! ### The control stack follows the grammar -/

/-- The stack as a list of frames. -/
inductive IsStack : ControlStack → List FrameKind → Prop
  | nil : IsStack ⟨[], none⟩ []
  | cons (k ks) : IsStack ⟨ks, some k⟩ (k :: ks)

theorem IsStack.push {s ks} (h : IsStack s ks) (k : FrameKind) : IsStack (s.push k) (k :: ks) := by
  cases h <;> exact .cons _ _

theorem IsStack.pop {s k ks} (h : IsStack s (k :: ks)) : IsStack s.pop ks := by
  cases h
  cases ks <;> constructor

/-- The frame opened by an instruction that opens one. -/
def opened : Operator → FrameKind
  | .block .block _ => .block
  | .block .loop _ => .loop
  | .block .if_ _ => .if_
  | .block .try_ _ => .legacyTry
  | _ => .tryTable

/-- The stack after an operator, on lists. -/
def stepStack (op : Operator) : List FrameKind → List FrameKind
  | [] => []
  | k :: ks => match tokOp op with
    | .opens | .opensIf | .opensTry => opened op :: k :: ks
    | .else_ => .else_ :: ks
    | .catch_ => .legacyCatch :: ks
    | .catchAll => .legacyCatchAll :: ks
    | .delegate | .end_ => ks
    | .other => k :: ks

theorem visit_stack {s k ks} (h : IsStack s (k :: ks)) (op : Operator) :
    IsStack (s.visit op) (stepStack op (k :: ks)) := by
  cases op with
  | block o t => cases o <;> exact h.push _
  | tryTable => exact h.push _
  | else_ => exact h.pop.push _
  | catch_ => exact h.pop.push _
  | catchAll => exact h.pop.push _
  | delegate => exact h.pop
  | end_ => exact h.pop
  | _ => exact h

/-- A run on lists of frames. -/
def Run : List FrameKind → List Operator → List FrameKind → Prop
  | ks, [], ks' => ks = ks'
  | ks, op :: ops, ks' =>
    (∃ k rest, ks = k :: rest ∧ FrameOk k (tokOp op)) ∧ Run (stepStack op ks) ops ks'

theorem Run.append : ∀ {ks ops ops' ks' ks''}, Run ks ops ks' → Run ks' ops' ks'' →
    Run ks (ops ++ ops') ks''
  | _, [], _, _, _, h1, h2 => by cases h1; exact h2
  | _, op :: ops, _, _, _, ⟨h0, h1⟩, h2 => ⟨h0, h1.append h2⟩

theorem map_eq_append_cons {α β : Type} {f : α → β} {xs : List α} {ys : List β} {z : β} {zs : List β}
    (h : xs.map f = ys ++ z :: zs) : ∃ a b c, xs = a ++ b :: c ∧ a.map f = ys ∧ f b = z ∧
      c.map f = zs := by
  obtain ⟨a, bc, rfl, h1, h2⟩ := List.map_eq_append_iff.1 h
  obtain ⟨b, c, rfl, h3, h4⟩ := List.map_eq_cons_iff.1 h2
  exact ⟨a, b, c, rfl, h1, h3, h4⟩

theorem run_one {k ks ks'} {op : Operator} (h : FrameOk k (tokOp op))
    (hs : stepStack op (k :: ks) = ks') : Run (k :: ks) [op] ks' := by
  subst hs
  exact ⟨⟨k, ks, rfl, h⟩, rfl⟩

theorem frameOk_free {k : FrameKind} {t : Tok} (h1 : t ≠ .else_) (h2 : t ≠ .catch_)
    (h3 : t ≠ .catchAll) (h4 : t ≠ .delegate) : FrameOk k t :=
  ⟨fun h => absurd h h1, fun h => h.elim (fun h => absurd h h2) (fun h => absurd h h3),
    fun h => absurd h h4⟩

theorem opened_if {op : Operator} (h : tokOp op = .opensIf) : opened op = .if_ := by
  cases op with
  | block o t => cases o <;> first | rfl | cases h
  | _ => cases h

theorem opened_try {op : Operator} (h : tokOp op = .opensTry) : opened op = .legacyTry := by
  cases op with
  | block o t => cases o <;> first | rfl | cases h
  | _ => cases h

theorem opened_other {op : Operator} (h : tokOp op = .opens) :
    opened op = .block ∨ opened op = .loop ∨ opened op = .tryTable := by
  cases op with
  | block o t => cases o <;> first | exact .inl rfl | exact .inr (.inl rfl) | cases h
  | tryTable => exact .inr (.inr rfl)
  | _ => cases h

/-- Runs over grammatical sequences. -/
theorem body_run {b : Bool} {ts : List Tok} (h : Body b ts) : ∀ (ops : List Operator),
    ops.map tokOp = ts → ∀ k ks,
      (b = true → Run (k :: ks) ops (k :: ks)) ∧
      (b = false → k = .legacyTry ∨ k = .legacyCatch → Run (k :: ks) ops ks) := by
  induction h with
  | nil =>
    intro ops h k ks
    obtain rfl := List.map_eq_nil_iff.1 h
    exact ⟨fun _ => rfl, nofun⟩
  | other _ ih =>
    intro ops h k ks
    obtain ⟨op, ops, rfl, h1, h2⟩ := List.map_eq_cons_iff.1 h
    refine ⟨fun _ => ?_, nofun⟩
    refine Run.append (ops := [op]) (run_one ?_ ?_) ((ih ops h2 k ks).1 rfl)
    · rw [h1]; exact frameOk_free (by decide) (by decide) (by decide) (by decide)
    · simp [stepStack, h1]
  | block _ _ ih1 ih2 =>
    intro ops h k ks
    obtain ⟨op, ops, rfl, h1, h2⟩ := List.map_eq_cons_iff.1 h
    obtain ⟨x, e, y, rfl, h3, h4, h5⟩ := map_eq_append_cons h2
    refine ⟨fun _ => ?_, nofun⟩
    refine Run.append (ops := [op]) (ks' := opened op :: k :: ks) (run_one ?_ ?_) ?_
    · rw [h1]; exact frameOk_free (by decide) (by decide) (by decide) (by decide)
    · simp [stepStack, h1]
    refine Run.append ((ih1 x h3 _ _).1 rfl) (Run.append (ops := [e]) (run_one ?_ ?_)
      ((ih2 y h5 k ks).1 rfl))
    · rw [h4]; exact frameOk_free (by decide) (by decide) (by decide) (by decide)
    · simp [stepStack, h4]
  | if_ _ _ ih1 ih2 =>
    intro ops h k ks
    obtain ⟨op, ops, rfl, h1, h2⟩ := List.map_eq_cons_iff.1 h
    obtain ⟨x, e, y, rfl, h3, h4, h5⟩ := map_eq_append_cons h2
    refine ⟨fun _ => ?_, nofun⟩
    refine Run.append (ops := [op]) (ks' := opened op :: k :: ks) (run_one ?_ ?_) ?_
    · rw [h1]; exact frameOk_free (by decide) (by decide) (by decide) (by decide)
    · simp [stepStack, h1]
    refine Run.append ((ih1 x h3 _ _).1 rfl) (Run.append (ops := [e]) (run_one ?_ ?_)
      ((ih2 y h5 k ks).1 rfl))
    · rw [h4]; exact frameOk_free (by decide) (by decide) (by decide) (by decide)
    · simp [stepStack, h4]
  | ifElse _ _ _ ih1 ih2 ih3 =>
    intro ops h k ks
    obtain ⟨op, ops, rfl, h1, h2⟩ := List.map_eq_cons_iff.1 h
    obtain ⟨x, e, y, rfl, h3, h4, h5⟩ := map_eq_append_cons h2
    obtain ⟨z, e', w, rfl, h6, h7, h8⟩ := map_eq_append_cons h5
    refine ⟨fun _ => ?_, nofun⟩
    refine Run.append (ops := [op]) (ks' := .if_ :: k :: ks) (run_one ?_ ?_) ?_
    · rw [h1]; exact frameOk_free (by decide) (by decide) (by decide) (by decide)
    · simp [stepStack, h1, opened_if h1]
    refine Run.append ((ih1 x h3 _ _).1 rfl) (Run.append (ops := [e])
      (ks' := .else_ :: k :: ks) (run_one ?_ ?_) ?_)
    · rw [h4]; exact ⟨fun _ => rfl, by simp, by simp⟩
    · simp [stepStack, h4]
    refine Run.append ((ih2 z h6 _ _).1 rfl) (Run.append (ops := [e']) (run_one ?_ ?_)
      ((ih3 w h8 k ks).1 rfl))
    · rw [h7]; exact frameOk_free (by decide) (by decide) (by decide) (by decide)
    · simp [stepStack, h7]
  | try_ _ _ _ ih1 ih2 ih3 =>
    intro ops h k ks
    obtain ⟨op, ops, rfl, h1, h2⟩ := List.map_eq_cons_iff.1 h
    obtain ⟨x, yz, rfl, h3, h4⟩ := List.map_eq_append_iff.1 h2
    obtain ⟨y, z, rfl, h5, h6⟩ := List.map_eq_append_iff.1 h4
    refine ⟨fun _ => ?_, nofun⟩
    refine Run.append (ops := [op]) (ks' := .legacyTry :: k :: ks) (run_one ?_ ?_) ?_
    · rw [h1]; exact frameOk_free (by decide) (by decide) (by decide) (by decide)
    · simp [stepStack, h1, opened_try h1]
    exact Run.append ((ih1 x h3 _ _).1 rfl) (Run.append ((ih2 y h5 _ _).2 rfl (.inl rfl))
      ((ih3 z h6 k ks).1 rfl))
  | delegate _ _ ih1 ih2 =>
    intro ops h k ks
    obtain ⟨op, ops, rfl, h1, h2⟩ := List.map_eq_cons_iff.1 h
    obtain ⟨x, e, y, rfl, h3, h4, h5⟩ := map_eq_append_cons h2
    refine ⟨fun _ => ?_, nofun⟩
    refine Run.append (ops := [op]) (ks' := .legacyTry :: k :: ks) (run_one ?_ ?_) ?_
    · rw [h1]; exact frameOk_free (by decide) (by decide) (by decide) (by decide)
    · simp [stepStack, h1, opened_try h1]
    refine Run.append ((ih1 x h3 _ _).1 rfl) (Run.append (ops := [e]) (run_one ?_ ?_)
      ((ih2 y h5 k ks).1 rfl))
    · rw [h4]; exact ⟨by simp, by simp, by simp⟩
    · simp [stepStack, h4]
  | end_ =>
    intro ops h k ks
    obtain ⟨op, ops, rfl, h1, h2⟩ := List.map_eq_cons_iff.1 h
    obtain rfl := List.map_eq_nil_iff.1 h2
    refine ⟨nofun, fun _ _ => run_one ?_ ?_⟩
    · rw [h1]; exact frameOk_free (by decide) (by decide) (by decide) (by decide)
    · simp [stepStack, h1]
  | catch_ _ _ ih1 ih2 =>
    intro ops h k ks
    obtain ⟨op, ops, rfl, h1, h2⟩ := List.map_eq_cons_iff.1 h
    obtain ⟨x, y, rfl, h3, h4⟩ := List.map_eq_append_iff.1 h2
    refine ⟨nofun, fun _ hk => ?_⟩
    refine Run.append (ops := [op]) (ks' := .legacyCatch :: ks) (run_one ?_ ?_)
      (Run.append ((ih1 x h3 _ _).1 rfl) ((ih2 y h4 _ _).2 rfl (.inr rfl)))
    · rw [h1]; exact ⟨by simp, fun _ => hk, by simp⟩
    · simp [stepStack, h1]
  | catchAll _ ih1 =>
    intro ops h k ks
    obtain ⟨op, ops, rfl, h1, h2⟩ := List.map_eq_cons_iff.1 h
    obtain ⟨x, e, y, rfl, h3, h4, h5⟩ := map_eq_append_cons h2
    obtain rfl := List.map_eq_nil_iff.1 h5
    refine ⟨nofun, fun _ hk => ?_⟩
    refine Run.append (ops := [op]) (ks' := .legacyCatchAll :: ks) (run_one ?_ ?_)
      (Run.append ((ih1 x h3 _ _).1 rfl) (run_one ?_ ?_))
    · rw [h1]; exact ⟨by simp, fun _ => hk, by simp⟩
    · simp [stepStack, h1]
    · rw [h4]; exact frameOk_free (by decide) (by decide) (by decide) (by decide)
    · simp [stepStack, h4]

theorem expr_run {ops : List Operator} (h : Expr (ops.map tokOp)) (k : FrameKind) :
    Run [k] ops [] := by
  obtain ⟨b, hb, he⟩ := h
  obtain ⟨x, e, y, rfl, h3, h4, h5⟩ := map_eq_append_cons he
  obtain rfl := List.map_eq_nil_iff.1 h5
  refine Run.append ((body_run hb x h3 k []).1 rfl) (run_one ?_ ?_)
  · rw [h4]; exact frameOk_free (by decide) (by decide) (by decide) (by decide)
  · simp [stepStack, h4]

/-! ### A run that empties the stack is grammatical -/

/-- What closes a stack of frames. -/
inductive Closes : List FrameKind → List Tok → Prop
  | nil : Closes [] []
  | plain {k ks b rest} : Body true b → Closes ks rest → Closes (k :: ks) (b ++ .end_ :: rest)
  | else_ {ks b e rest} : Body true b → Body true e → Closes ks rest →
      Closes (.if_ :: ks) (b ++ .else_ :: (e ++ .end_ :: rest))
  | try_ {k ks b cs rest} : k = .legacyTry ∨ k = .legacyCatch → Body true b → Body false cs →
      Closes ks rest → Closes (k :: ks) (b ++ (cs ++ rest))
  | delegate {ks b rest} : Body true b → Closes ks rest →
      Closes (.legacyTry :: ks) (b ++ .delegate :: rest)

/-- Putting a whole block in front of what closes the stack. -/
theorem Closes.prepend {k ks ts} (h : Closes (k :: ks) ts) {x : List Tok}
    (hx : ∀ b, Body true b → Body true (x ++ b)) : Closes (k :: ks) (x ++ ts) := by
  cases h with
  | plain hb hr => rw [← List.append_assoc]; exact .plain (hx _ hb) hr
  | else_ hb he hr => rw [← List.append_assoc]; exact .else_ (hx _ hb) he hr
  | try_ hk hb hc hr => rw [← List.append_assoc]; exact .try_ hk (hx _ hb) hc hr
  | delegate hb hr => rw [← List.append_assoc]; exact .delegate (hx _ hb) hr

theorem run_closes : ∀ {ops : List Operator} {ks : List FrameKind}, Run ks ops [] →
    Closes ks (ops.map tokOp)
  | [], _, h => by cases h; exact .nil
  | op :: ops, _, ⟨⟨k, ks, rfl, hk⟩, h⟩ => by
    have ih := run_closes h
    simp only [List.map_cons]
    generalize ops.map tokOp = ts at ih
    cases ht : tokOp op with
    | other =>
      simp only [stepStack, ht] at ih
      exact ih.prepend (x := [.other]) fun b hb => .other hb
    | opens =>
      simp only [stepStack, ht] at ih
      have ho := opened_other ht
      generalize opened op = o at ih ho
      cases ih with
      | plain hb hr =>
        have := hr.prepend (x := .opens :: (_ ++ [.end_])) fun b' hb' => by
          simpa using Body.block hb hb'
        simpa using this
      | else_ => simp at ho
      | try_ hk' => rcases hk' with rfl | rfl <;> simp at ho
      | delegate => simp at ho
    | opensIf =>
      simp only [stepStack, ht, opened_if ht] at ih
      cases ih with
      | plain hb hr =>
        have := hr.prepend (x := .opensIf :: (_ ++ [.end_])) fun b' hb' => by
          simpa using Body.if_ hb hb'
        simpa using this
      | else_ hb he hr =>
        have := hr.prepend (x := .opensIf :: (_ ++ .else_ :: (_ ++ [.end_]))) fun b' hb' => by
          simpa using Body.ifElse hb he hb'
        simpa using this
      | try_ hk' => simp at hk'
    | opensTry =>
      simp only [stepStack, ht, opened_try ht] at ih
      cases ih with
      | plain hb hr =>
        have := hr.prepend (x := .opensTry :: (_ ++ [.end_])) fun b' hb' => by
          simpa using Body.try_ hb .end_ hb'
        simpa using this
      | try_ hk' hb hc hr =>
        have := hr.prepend (x := .opensTry :: (_ ++ _)) fun b' hb' => by
          simpa using Body.try_ hb hc hb'
        simpa using this
      | delegate hb hr =>
        have := hr.prepend (x := .opensTry :: (_ ++ [.delegate])) fun b' hb' => by
          simpa using Body.delegate hb hb'
        simpa using this
    | else_ =>
      simp only [stepStack, ht] at ih
      obtain rfl := hk.1 ht
      cases ih with
      | plain hb hr => exact .else_ .nil hb hr
      | try_ hk' => simp at hk'
    | catch_ =>
      simp only [stepStack, ht] at ih
      have hk := hk.2.1 (.inl ht)
      cases ih with
      | plain hb hr =>
        have := Closes.try_ hk .nil (.catch_ hb .end_) hr
        simpa using this
      | try_ hk' hb hc hr =>
        have := Closes.try_ hk .nil (.catch_ hb hc) hr
        simpa using this
    | catchAll =>
      simp only [stepStack, ht] at ih
      have hk := hk.2.1 (.inr ht)
      cases ih with
      | plain hb hr =>
        have := Closes.try_ hk .nil (.catchAll hb) hr
        simpa using this
      | try_ hk' hb hc hr => simp at hk'
    | delegate =>
      simp only [stepStack, ht] at ih
      obtain rfl := hk.2.2 ht
      exact .delegate .nil ih
    | end_ =>
      simp only [stepStack, ht] at ih
      exact .plain .nil ih

theorem run_expr {ops : List Operator} (h : Run [.block] ops []) : Expr (ops.map tokOp) := by
  have := run_closes h
  generalize ops.map tokOp = ts at this
  cases this with
  | plain hb hr => cases hr; exact ⟨_, hb, rfl⟩
  | try_ hk => simp at hk

end Verif.Instr
