import Verif.Wave.Tokens
import Mathlib.Data.List.Nodup
import Mathlib.Data.List.Forall2
/-
Parsing what the writer wrote.
-/
namespace Verif.Wave

open Verif.Std Spec

/-! ### The parser makes progress -/

/-- A parsing function consumes at least one token. -/
def Progress (pn : Toks → Option (Node × Toks)) : Prop :=
  ∀ toks n r, pn toks = some (n, r) → r.length < toks.length

theorem advance_length {toks r : Toks} {t : Token} {x : Text} (h : advance toks = some (t, x, r)) :
    r.length < toks.length := by
  unfold advance at h
  split at h
  · cases h; simp
  · cases h

theorem expect_length {t : Token} {toks r : Toks} (h : expect t toks = some r) :
    r.length < toks.length := by
  unfold expect at h
  split at h
  · rename_i ha
    split at h
    · cases h; exact advance_length ha
    · cases h
  · cases h

theorem nextIs_tail {t : Token} {toks : Toks} (h : nextIs t toks = true) :
    toks.tail.length < toks.length := by
  unfold nextIs at h
  split at h
  · simp
  · cases h

theorem optComma_length {t1 t2 : Token} {x1 x2 : Text} {toks1 toks2 : Toks}
    (h : (if t1 = .comma then advance toks1 else some (t1, x1, toks1)) = some (t2, x2, toks2)) :
    toks2.length ≤ toks1.length := by
  split at h
  · exact Nat.le_of_lt (advance_length h)
  · cases h; exact Nat.le_refl _

section
variable {pn : Toks → Option (Node × Toks)} (hp : Progress pn)
include hp

theorem commaLoop_length (e : Token) (n : Nat) (toks : Toks) (ns : List Node) (r : Toks)
    (h : commaLoop pn e n toks = some (ns, r)) : r.length < toks.length := by
  induction n generalizing toks ns r with
  | zero => cases h
  | succ n ih =>
    unfold commaLoop at h
    split at h
    · cases h
    · rename_i h1
      have l1 := hp _ _ _ h1
      split at h
      · cases h
      · rename_i h2
        have l2 := advance_length h2
        split at h
        · split at h
          · rename_i h3
            have l3 := nextIs_tail h3
            cases h
            omega
          · simp only [Option.map_eq_some_iff, Prod.mk.injEq, Prod.exists] at h
            obtain ⟨_, _, h, _, rfl⟩ := h
            have := ih _ _ _ h
            omega
        · split at h
          · cases h; omega
          · cases h

theorem commaSeparated_length (e : Token) (toks : Toks) (ns : List Node) (r : Toks)
    (h : commaSeparated pn e toks = some (ns, r)) : r.length < toks.length := by
  unfold commaSeparated at h
  split at h
  · rename_i h1; cases h; exact nextIs_tail h1
  · exact commaLoop_length hp _ _ _ _ _ h

theorem recordLoop_length (n : Nat) (seen : List Text) (t : Token) (x : Text) (toks : Toks)
    (ns : List Node) (r : Toks) (h : recordLoop pn n seen t x toks = some (ns, r)) :
    r.length < toks.length := by
  induction n generalizing seen t x toks ns r with
  | zero => cases h
  | succ n ih =>
    unfold recordLoop at h
    split at h
    · cases h
    · dsimp only at h
      split at h
      · cases h
      · split at h
        · cases h
        · rename_i h1
          have l1 := expect_length h1
          split at h
          · cases h
          · rename_i h2
            have l2 := hp _ _ _ h2
            split at h
            · cases h
            · rename_i h3
              have l3 := advance_length h3
              split at h
              · cases h
              · rename_i h4
                have l4 := optComma_length h4
                split at h
                · cases h; omega
                · simp only [Option.map_eq_some_iff, Prod.mk.injEq, Prod.exists] at h
                  obtain ⟨_, _, h, _, rfl⟩ := h
                  have := ih _ _ _ _ _ _ h
                  omega

omit hp in
theorem flagsLoop_length (n : Nat) (seen : List Text) (t : Token) (x : Text) (toks : Toks)
    (ns : List Node) (r : Toks) (h : flagsLoop n seen t x toks = some (ns, r)) :
    r.length < toks.length := by
  induction n generalizing seen t x toks ns r with
  | zero => cases h
  | succ n ih =>
    unfold flagsLoop at h
    split at h
    · cases h
    · dsimp only at h
      split at h
      · cases h
      · split at h
        · cases h
        · rename_i h3
          have l3 := advance_length h3
          split at h
          · cases h
          · rename_i h4
            have l4 := optComma_length h4
            split at h
            · cases h; omega
            · simp only [Option.map_eq_some_iff, Prod.mk.injEq, Prod.exists] at h
              obtain ⟨_, _, h, _, rfl⟩ := h
              have := ih _ _ _ _ _ _ h
              omega

theorem recordOrFlags_length (toks : Toks) (n : Node) (r : Toks)
    (h : recordOrFlags pn toks = some (n, r)) : r.length < toks.length := by
  unfold recordOrFlags at h
  split at h
  · cases h
  · rename_i h1
    have l1 := advance_length h1
    split at h
    · simp only [Option.map_eq_some_iff, Prod.mk.injEq] at h
      obtain ⟨_, h, _, rfl⟩ := h
      have := expect_length h
      omega
    · split at h
      · cases h; exact l1
      · split at h
        · simp only [Option.map_eq_some_iff, Prod.mk.injEq, Prod.exists] at h
          obtain ⟨_, _, h, _, rfl⟩ := h
          have := recordLoop_length hp _ _ _ _ _ _ _ h
          omega
        · simp only [Option.map_eq_some_iff, Prod.mk.injEq, Prod.exists] at h
          obtain ⟨_, _, h, _, rfl⟩ := h
          have := flagsLoop_length _ _ _ _ _ _ _ h
          omega

theorem payload_length (toks : Toks) (n : Node) (r : Toks)
    (h : payload pn toks = some (n, r)) : r.length < toks.length := by
  unfold payload at h
  split at h
  · cases h
  · rename_i h1
    have l1 := expect_length h1
    split at h
    · cases h
    · rename_i h2
      have l2 := hp _ _ _ h2
      simp only [Option.map_eq_some_iff, Prod.mk.injEq] at h
      obtain ⟨_, h, _, rfl⟩ := h
      have := expect_length h
      omega

theorem payload_map_length (toks : Toks) (n : Node) (r : Toks) (f : Node × Toks → Node × Toks)
    (h : (payload pn toks).map f = some (n, r)) (hf : ∀ p, (f p).2 = p.2) :
    r.length < toks.length := by
  simp only [Option.map_eq_some_iff, Prod.exists] at h
  obtain ⟨a, b, h, h2⟩ := h
  have := hf (a, b)
  rw [h2] at this
  dsimp only at this
  subst this
  exact payload_length hp _ _ _ h

theorem parseNodeInner_progress : Progress (parseNodeInner pn) := by
  intro toks n r h
  unfold parseNodeInner at h
  split at h
  · cases h
  · rename_i h1
    have l1 := advance_length h1
    split at h
    any_goals (cases h; done)
    any_goals (cases h; exact l1)
    · split at h
      · cases h
      · rename_i h2
        have := commaSeparated_length hp _ _ _ _ h2
        split at h
        · cases h
        · cases h; omega
    · simp only [Option.map_eq_some_iff, Prod.mk.injEq, Prod.exists] at h
      obtain ⟨_, _, h, _, rfl⟩ := h
      have := commaSeparated_length hp _ _ _ _ h
      omega
    · have := recordOrFlags_length hp _ _ _ h
      omega
    · split at h
      any_goals (cases h; exact l1)
      · have := payload_map_length hp _ _ _ _ h (fun _ => rfl); omega
      · split at h
        · have := payload_map_length hp _ _ _ _ h (fun _ => rfl); omega
        · cases h; exact l1
      · split at h
        · have := payload_map_length hp _ _ _ _ h (fun _ => rfl); omega
        · cases h; exact l1
      · split at h
        · have := payload_map_length hp _ _ _ _ h (fun _ => rfl); omega
        · cases h; exact l1

end

theorem parseNode_progress (d : Nat) : Progress (parseNode d) := by
  induction d with
  | zero => intro _ _ _ h; cases h
  | succ d ih => exact parseNodeInner_progress ih

/-! ### What may follow a value -/

/-- The text after a value is empty or starts with a character that may follow a value. -/
def Follow (r : Text) : Prop := ∀ c ∈ r.head?, c ∈ [',', ')', ']', '}']

theorem Follow.stop {r : Text} (h : Follow r) : Stop r := by
  intro c hc
  have := h c hc
  revert this
  simp only [List.mem_cons, List.not_mem_nil, or_false]
  tauto

theorem follow_nil : Follow [] := by simp [Follow]

theorem follow_cons {c : Char} (h : c ∈ [',', ')', ']', '}']) (r : Text) : Follow (c :: r) := by
  intro d hd
  simp at hd
  exact hd ▸ h

theorem nextIs_follow {r : Text} (h : Follow r) (t : Token)
    (ht : t ∉ [Token.comma, .parenClose, .bracketClose, .braceClose]) :
    nextIs t (lexAll r) = false := by
  cases r with
  | nil => rfl
  | cons c r =>
    have hc := h c (by simp)
    simp only [List.mem_cons, List.not_mem_nil, or_false, not_or] at hc ht
    obtain ⟨h1, h2, h3, h4⟩ := ht
    obtain ⟨_, p2, _, p4, _, p6, _, p8⟩ := lexAll_punct r
    rcases hc with rfl | rfl | rfl | rfl
    · rw [p8]; simp [nextIs, Ne.symm h1]
    · rw [p4]; simp [nextIs, Ne.symm h2]
    · rw [p6]; simp [nextIs, Ne.symm h3]
    · rw [p2]; simp [nextIs, Ne.symm h4]

theorem sepBy_cons (t : Text) (ts : List Text) :
    sepBy (t :: ts) = t ++ ts.flatMap (fun x => ',' :: ' ' :: x) := by
  induction ts generalizing t with
  | nil => simp [sepBy]
  | cons u us ih =>
    rw [sepBy, ih]
    · simp
    · simp

variable {F D : Type} (E : Env F D)

/-- Parsing the text of the value gives a node that converts to the value. -/
def Good (d : Nat) (t : Ty) (v : Val F D) : Prop :=
  ∀ r, Follow r → ∃ n, parseNode d (lexAll (write E v ++ r)) = some (n, lexAll r) ∧
    toVal E t n = some v

theorem writeAll_eq (vs : List (Val F D)) : writeAll E vs = vs.map (write E) := by
  induction vs with
  | nil => simp [writeAll]
  | cons v vs ih => simp [writeAll, ih]

/-! ### Lists and tuples -/

theorem commaLoop_write {d : Nat} {close : Char} {e : Token}
    (hc : (close, e) ∈ [(')', Token.parenClose), (']', Token.bracketClose)])
    (p : Ty × Val F D) (ps : List (Ty × Val F D)) (hg : ∀ q ∈ p :: ps, Good E d q.1 q.2) (r : Text)
    (n : Nat)
    (hn : (lexAll (write E p.2 ++ (ps.map (fun q => write E q.2)).flatMap (fun x => ',' :: ' ' :: x)
      ++ close :: r)).length < n) :
    ∃ ns, commaLoop (parseNode d) e n (lexAll (write E p.2 ++
        (ps.map (fun q => write E q.2)).flatMap (fun x => ',' :: ' ' :: x) ++ close :: r))
      = some (ns, lexAll r) ∧ List.Forall₂ (fun q n => toVal E q.1 n = some q.2) (p :: ps) ns := by
  have hclose : ∀ r, lexAll (close :: r) = .tok e [close] :: lexAll r ∧ e ≠ .comma ∧
      close ∈ [',', ')', ']', '}'] := by
    intro r
    obtain ⟨_, p2, _, p4, _, p6, _, p8⟩ := lexAll_punct r
    simp only [List.mem_cons, Prod.mk.injEq, List.not_mem_nil, or_false] at hc
    rcases hc with ⟨rfl, rfl⟩ | ⟨rfl, rfl⟩
    · exact ⟨p4, by decide, by decide⟩
    · exact ⟨p6, by decide, by decide⟩
  induction ps generalizing p n with
  | nil =>
    obtain ⟨n, rfl⟩ : ∃ k, n = k + 1 := ⟨n - 1, by omega⟩
    obtain ⟨node, h1, h2⟩ := hg p (by simp) (close :: r) (follow_cons (hclose r).2.2 r)
    refine ⟨[node], ?_, .cons h2 .nil⟩
    simp only [List.map_nil, List.flatMap_nil, List.append_nil, commaLoop, h1]
    rw [(hclose r).1]
    simp [advance, (hclose r).2.1]
  | cons q ps ih =>
    obtain ⟨n, rfl⟩ : ∃ k, n = k + 1 := ⟨n - 1, by omega⟩
    set tail : Text := write E q.2 ++ (ps.map (fun q => write E q.2)).flatMap (fun x => ',' :: ' ' :: x)
      ++ close :: r with htail
    have he : write E p.2 ++ ((q :: ps).map (fun q => write E q.2)).flatMap (fun x => ',' :: ' ' :: x)
        ++ close :: r = write E p.2 ++ ',' :: ' ' :: tail := by simp [htail]
    rw [he] at hn ⊢
    obtain ⟨node, h1, h2⟩ := hg p (by simp) (',' :: ' ' :: tail) (follow_cons (by simp) _)
    have l1 := parseNode_progress d _ _ _ h1
    have hcomma : lexAll (',' :: ' ' :: tail) = .tok .comma [','] :: lexAll tail := by
      obtain ⟨_, _, _, _, _, _, _, p8⟩ := lexAll_punct (' ' :: tail)
      rw [p8, lexAll_blank]
    rw [hcomma] at l1
    simp only [List.length_cons] at l1
    obtain ⟨ns, h3, h4⟩ := ih q (fun q hq => hg q (by simp [List.mem_cons.mp hq])) n
      (by rw [← htail]; omega)
    rw [← htail] at h3
    refine ⟨node :: ns, ?_, .cons h2 h4⟩
    have hnext : nextIs e (lexAll tail) = false := by
      obtain ⟨nq, h5, _⟩ := hg q (by simp)
        ((ps.map (fun q => write E q.2)).flatMap (fun x => ',' :: ' ' :: x) ++ close :: r) (by
          cases ps with
          | nil => exact follow_cons (hclose r).2.2 r
          | cons _ _ => exact follow_cons (by simp) _)
      rw [← List.append_assoc, ← htail] at h5
      by_contra hcon
      simp only [Bool.not_eq_false] at hcon
      cases hl : lexAll tail with
      | nil => rw [hl] at hcon; cases hcon
      | cons i is =>
        cases i with
        | bad => rw [hl] at hcon; cases hcon
        | tok t' x =>
          rw [hl] at hcon h5
          simp only [nextIs, decide_eq_true_eq] at hcon
          subst hcon
          cases d with
          | zero => cases h5
          | succ d =>
            simp only [parseNode, parseNodeInner, advance] at h5
            simp only [List.mem_cons, Prod.mk.injEq, List.not_mem_nil, or_false] at hc
            rcases hc with ⟨rfl, rfl⟩ | ⟨rfl, rfl⟩ <;> cases h5
    simp only [commaLoop, h1]
    rw [hcomma]
    simp [advance, hnext, h3]

/-- The elements of a list or tuple with the closing bracket. -/
theorem commaSeparated_write {d : Nat} {close : Char} {e : Token}
    (hc : (close, e) ∈ [(')', Token.parenClose), (']', Token.bracketClose)])
    (ps : List (Ty × Val F D)) (hg : ∀ q ∈ ps, Good E d q.1 q.2) (r : Text) :
    ∃ ns, commaSeparated (parseNode d) e
        (lexAll (sepBy (writeAll E (ps.map Prod.snd)) ++ close :: r))
      = some (ns, lexAll r) ∧ List.Forall₂ (fun q n => toVal E q.1 n = some q.2) ps ns := by
  cases ps with
  | nil =>
    refine ⟨[], ?_, .nil⟩
    obtain ⟨_, p2, _, p4, _, p6, _, p8⟩ := lexAll_punct r
    simp only [List.mem_cons, Prod.mk.injEq, List.not_mem_nil, or_false] at hc
    rcases hc with ⟨rfl, rfl⟩ | ⟨rfl, rfl⟩
    · simp only [List.map_nil, writeAll, sepBy, List.nil_append, p4]; rfl
    · simp only [List.map_nil, writeAll, sepBy, List.nil_append, p6]; rfl
  | cons p ps =>
    have he : sepBy (writeAll E ((p :: ps).map Prod.snd)) = write E p.2 ++
        (ps.map (fun q => write E q.2)).flatMap (fun x => ',' :: ' ' :: x) := by
      rw [writeAll_eq, List.map_cons, List.map_cons, sepBy_cons, List.map_map]
      rfl
    rw [he]
    obtain ⟨ns, h1, h2⟩ := commaLoop_write E hc p ps hg r _ (Nat.lt_succ_self _)
    refine ⟨ns, ?_, h2⟩
    unfold commaSeparated
    rw [if_neg, h1]
    intro hcon
    obtain ⟨nq, h5, _⟩ := hg p (by simp)
      ((ps.map (fun q => write E q.2)).flatMap (fun x => ',' :: ' ' :: x) ++ close :: r) (by
        cases ps with
        | nil =>
          simp only [List.mem_cons, Prod.mk.injEq, List.not_mem_nil, or_false] at hc
          rcases hc with ⟨rfl, rfl⟩ | ⟨rfl, rfl⟩ <;> exact follow_cons (by simp) _
        | cons _ _ => exact follow_cons (by simp) _)
    rw [← List.append_assoc] at h5
    generalize lexAll (write E p.2 ++ _ ++ close :: r) = l at h5 hcon
    cases l with
    | nil => cases hcon
    | cons i is =>
      cases i with
      | bad => cases hcon
      | tok t' x =>
        simp only [nextIs, decide_eq_true_eq] at hcon
        subst hcon
        cases d with
        | zero => cases h5
        | succ d =>
          simp only [parseNode, parseNodeInner, advance] at h5
          simp only [List.mem_cons, Prod.mk.injEq, List.not_mem_nil, or_false] at hc
          rcases hc with ⟨rfl, rfl⟩ | ⟨rfl, rfl⟩ <;> cases h5

theorem toTuple_of {ps : List (Ty × Val F D)} {ns : List Node}
    (h : List.Forall₂ (fun q n => toVal E q.1 n = some q.2) ps ns) :
    toTuple E (ps.map Prod.fst) ns = some (ps.map Prod.snd) := by
  induction h with
  | nil => simp [toTuple]
  | cons h _ ih => simp [toTuple, h, ih]

theorem mapM_of {t : Ty} {vs : List (Val F D)} {ns : List Node}
    (h : List.Forall₂ (fun q n => toVal E q.1 n = some q.2) (vs.map (fun v => (t, v))) ns) :
    ns.mapM (toVal E t) = some vs := by
  induction vs generalizing ns with
  | nil => cases h; rfl
  | cons v vs ih =>
    cases h with
    | cons h1 h2 => simp [h1, ih h2]

theorem allHaveTy_pairs {ts : List Ty} {vs : List (Val F D)} (h : AllHaveTy ts vs) :
    ∃ ps : List (Ty × Val F D), ts = ps.map Prod.fst ∧ vs = ps.map Prod.snd ∧
      ∀ p ∈ ps, HasTy p.1 p.2 := by
  induction ts generalizing vs with
  | nil => cases h; exact ⟨[], rfl, rfl, by simp⟩
  | cons t ts ih =>
    cases h with
    | cons _ v _ vs h1 h2 =>
      obtain ⟨ps, rfl, rfl, h⟩ := ih h2
      refine ⟨(t, v) :: ps, rfl, rfl, ?_⟩
      intro p hp
      rcases List.mem_cons.mp hp with rfl | hp
      · exact h1
      · exact h p hp

theorem depthAll_mem {vs : List (Val F D)} {v : Val F D} (h : v ∈ vs) : depth v ≤ depthAll vs := by
  induction vs with
  | nil => cases h
  | cons u us ih =>
    simp only [depthAll]
    rcases List.mem_cons.mp h with rfl | h
    · omega
    · have := ih h; omega

/-! ### Records -/

/-- A field that is written: anything but `none`. -/
def Written (v : Val F D) : Bool :=
  match v with
  | .option none => false
  | _ => true

abbrev Field (F D : Type) := Text × Ty × Val F D

theorem writeFields_eq (qs : List (Field F D)) :
    writeFields E (qs.map fun q => (q.1, q.2.2))
      = (qs.filter fun q => Written q.2.2).map (fun q => q.1 ++ ':' :: ' ' :: write E q.2.2) := by
  induction qs with
  | nil => simp [writeFields]
  | cons q qs ih =>
    obtain ⟨n, t, v⟩ := q
    rw [List.map_cons]
    dsimp only
    unfold writeFields
    split
    · simp [Written, ih]
    · rename_i h
      have hw : Written v = true := by
        unfold Written
        split
        · exact absurd rfl h
        · rfl
      rw [List.filter_cons_of_pos (by simpa using hw), ih]
      simp

theorem trimPct_name {t : Text} (h : IsName t) : trimPct t = t := by
  obtain ⟨c, s, rfl, hc⟩ := name_head h
  have : c ≠ '%' := by rintro rfl; revert hc; decide
  simp [trimPct, this]

theorem asLabel_name {t : Text} (h : IsName t) : asLabel (.mk .label t []) = some t := by
  obtain ⟨c, s, rfl, hc⟩ := name_head h
  have : c ≠ '%' := by rintro rfl; revert hc; decide
  simp only [asLabel, Node.ty, Node.text, ne_eq, not_true_eq_false, if_false]
  split
  · exact absurd ‹c :: s = _› (by simp [this])
  · rfl

theorem recordLoop_write {d : Nat} (q : Field F D) (qs : List (Field F D))
    (hg : ∀ q' ∈ q :: qs, Good E d q'.2.1 q'.2.2) (hname : ∀ q' ∈ q :: qs, IsName q'.1)
    (hnd : ((q :: qs).map Prod.fst).Nodup) (seen : List Text)
    (hseen : ∀ q' ∈ q :: qs, q'.1 ∉ seen) (r : Text) (n : Nat)
    (hn : (lexAll (':' :: ' ' :: write E q.2.2 ++
      (qs.map (fun q => q.1 ++ ':' :: ' ' :: write E q.2.2)).flatMap (fun x => ',' :: ' ' :: x)
      ++ '}' :: r)).length < n) :
    ∃ ns kvs, recordLoop (parseNode d) n seen .labelOrKeyword q.1 (lexAll (':' :: ' ' ::
        write E q.2.2 ++
        (qs.map (fun q => q.1 ++ ':' :: ' ' :: write E q.2.2)).flatMap (fun x => ',' :: ' ' :: x)
        ++ '}' :: r)) = some (ns, lexAll r) ∧ asRecord ns = some kvs ∧
      List.Forall₂ (fun q kv => kv.1 = q.1 ∧ toVal E q.2.1 kv.2 = some q.2.2) (q :: qs) kvs := by
  have hcolon : ∀ r, lexAll (':' :: ' ' :: r) = .tok .colon [':'] :: lexAll r := by
    intro r
    obtain ⟨_, _, _, _, _, _, p7, _⟩ := lexAll_punct (' ' :: r)
    rw [p7, lexAll_blank]
  have hcomma : ∀ r, lexAll (',' :: ' ' :: r) = .tok .comma [','] :: lexAll r := by
    intro r
    obtain ⟨_, _, _, _, _, _, _, p8⟩ := lexAll_punct (' ' :: r)
    rw [p8, lexAll_blank]
  have hbrace : lexAll ('}' :: r) = .tok .braceClose ['}'] :: lexAll r := (lexAll_punct r).2.1
  induction qs generalizing q n seen with
  | nil =>
    obtain ⟨n, rfl⟩ : ∃ k, n = k + 1 := ⟨n - 1, by omega⟩
    obtain ⟨node, h1, h2⟩ := hg q (by simp) ('}' :: r) (follow_cons (by simp) r)
    have hq := hname q (by simp)
    refine ⟨[.mk .label q.1 [], node], [(q.1, node)], ?_, ?_, .cons ⟨rfl, h2⟩ .nil⟩
    · simp only [List.map_nil, List.flatMap_nil, List.append_nil, List.cons_append]
      rw [hcolon]
      simp only [recordLoop, trimPct_name hq, if_neg (hseen q (by simp)), expect, advance]
      simp only [ne_eq, not_true_eq_false, if_false, if_true]
      rw [h1, hbrace]
      simp
    · simp [asRecord, asLabel_name hq]
  | cons q' qs ih =>
    obtain ⟨n, rfl⟩ : ∃ k, n = k + 1 := ⟨n - 1, by omega⟩
    have hq := hname q (by simp)
    have hq' := hname q' (by simp)
    set tail : Text := ':' :: ' ' :: write E q'.2.2 ++
      (qs.map (fun q => q.1 ++ ':' :: ' ' :: write E q.2.2)).flatMap (fun x => ',' :: ' ' :: x)
      ++ '}' :: r with htail
    have he : ':' :: ' ' :: write E q.2.2 ++
        ((q' :: qs).map (fun q => q.1 ++ ':' :: ' ' :: write E q.2.2)).flatMap
          (fun x => ',' :: ' ' :: x) ++ '}' :: r
        = ':' :: ' ' :: (write E q.2.2 ++ ',' :: ' ' :: (q'.1 ++ tail)) := by simp [htail]
    rw [he] at hn ⊢
    obtain ⟨node, h1, h2⟩ := hg q (by simp) (',' :: ' ' :: (q'.1 ++ tail)) (follow_cons (by simp) _)
    have l1 := parseNode_progress d _ _ _ h1
    have hlabel : lexAll (q'.1 ++ tail) = .tok .labelOrKeyword q'.1 :: lexAll tail :=
      lexAll_name hq' (stop_cons (by simp) _)
    rw [hcomma, hlabel] at l1
    rw [hcolon] at hn ⊢
    simp only [List.length_cons] at l1 hn
    simp only [List.map_cons, List.nodup_cons] at hnd
    obtain ⟨ns, kvs, h3, h4, h5⟩ := ih q' (fun x hx => hg x (by simp [List.mem_cons.mp hx]))
      (fun x hx => hname x (by simp [List.mem_cons.mp hx]))
      (by simpa using hnd.2) (q.1 :: seen)
      (by
        intro x hx
        simp only [List.mem_cons, not_or]
        refine ⟨?_, hseen x (by simp [List.mem_cons.mp hx])⟩
        rintro hxq
        apply hnd.1
        rw [← hxq]
        rcases List.mem_cons.mp hx with rfl | hx
        · simp
        · exact List.mem_cons_of_mem _ (List.mem_map_of_mem hx)) n (by rw [← htail]; omega)
    rw [← htail] at h3
    refine ⟨.mk .label q.1 [] :: node :: ns, (q.1, node) :: kvs, ?_, ?_, .cons ⟨rfl, h2⟩ h5⟩
    · simp only [recordLoop, trimPct_name hq, if_neg (hseen q (by simp)), expect, advance]
      simp only [ne_eq, not_true_eq_false, if_false, if_true]
      rw [h1, hcomma, hlabel]
      simp [h3]
    · simp [asRecord, asLabel_name hq, h4]

theorem lookup_of {qs : List (Field F D)} {kvs : List (Text × Node)}
    (h : List.Forall₂ (fun q kv => kv.1 = q.1 ∧ toVal E q.2.1 kv.2 = some q.2.2) qs kvs)
    (hnd : (qs.map Prod.fst).Nodup) :
    (∀ q ∈ qs, ∃ n, lookup q.1 kvs = some n ∧ toVal E q.2.1 n = some q.2.2) ∧
      (∀ name, name ∉ qs.map Prod.fst → lookup name kvs = none) := by
  induction h with
  | nil => simp [lookup]
  | @cons q kv qs kvs h hs ih =>
    simp only [List.map_cons, List.nodup_cons] at hnd
    obtain ⟨ih1, ih2⟩ := ih hnd.2
    constructor
    · intro x hx
      rcases List.mem_cons.mp hx with rfl | hx
      · exact ⟨kv.2, by simp [lookup, h.1], h.2⟩
      · obtain ⟨n, h1, h2⟩ := ih1 x hx
        refine ⟨n, ?_, h2⟩
        rw [lookup, if_neg, h1]
        rw [h.1]
        intro he
        exact hnd.1 (he ▸ List.mem_map_of_mem hx)
    · intro name hname
      simp only [List.map_cons, List.mem_cons, not_or] at hname
      rw [lookup, if_neg, ih2 name hname.2]
      rw [h.1]
      exact Ne.symm hname.1

theorem toFields_of {qs : List (Field F D)} {kvs : List (Text × Node)}
    (h : ∀ q ∈ qs, (∃ n, lookup q.1 kvs = some n ∧ toVal E q.2.1 n = some q.2.2) ∨
      (lookup q.1 kvs = none ∧ q.2.1.isOption = true ∧ q.2.2 = .option none)) :
    toFields E kvs (qs.map fun q => (q.1, q.2.1)) = some (qs.map fun q => (q.1, q.2.2)) := by
  induction qs with
  | nil => simp [toFields]
  | cons q qs ih =>
    have ih := ih fun x hx => h x (by simp [hx])
    rcases h q (by simp) with ⟨n, h1, h2⟩ | ⟨h1, h2, h3⟩
    · simp [toFields, h1, h2, ih]
    · simp [toFields, h1, h2, h3, ih]

theorem fieldsHaveTy_triples {fs : List (Text × Ty)} {vs : List (Text × Val F D)}
    (h : FieldsHaveTy fs vs) :
    ∃ qs : List (Field F D), fs = qs.map (fun q => (q.1, q.2.1)) ∧
      vs = qs.map (fun q => (q.1, q.2.2)) ∧ ∀ q ∈ qs, HasTy q.2.1 q.2.2 := by
  induction fs generalizing vs with
  | nil => cases h; exact ⟨[], rfl, rfl, by simp⟩
  | cons t ts ih =>
    cases h with
    | cons n t v _ vs h1 h2 =>
      obtain ⟨qs, rfl, rfl, h⟩ := ih h2
      refine ⟨(n, t, v) :: qs, rfl, rfl, ?_⟩
      intro p hp
      rcases List.mem_cons.mp hp with rfl | hp
      · exact h1
      · exact h p hp

theorem depthFields_mem {vs : List (Text × Val F D)} {v : Text × Val F D} (h : v ∈ vs) :
    depth v.2 ≤ depthFields vs := by
  induction vs with
  | nil => cases h
  | cons u us ih =>
    simp only [depthFields]
    rcases List.mem_cons.mp h with rfl | h
    · exact Nat.le_max_left _ _
    · have := ih h; omega

/-! ### Flags -/

theorem flagsLoop_write (f : Text) (fs : List Text) (hname : ∀ x ∈ f :: fs, IsName x)
    (hnd : (f :: fs).Nodup) (seen : List Text) (hseen : ∀ x ∈ f :: fs, x ∉ seen) (r : Text) (n : Nat)
    (hn : (lexAll (fs.flatMap (fun x => ',' :: ' ' :: x) ++ '}' :: r)).length < n) :
    flagsLoop n seen .labelOrKeyword f (lexAll (fs.flatMap (fun x => ',' :: ' ' :: x) ++ '}' :: r))
      = some ((f :: fs).map (fun x => .mk .label x []), lexAll r) := by
  have hbrace : lexAll ('}' :: r) = .tok .braceClose ['}'] :: lexAll r := (lexAll_punct r).2.1
  induction fs generalizing f n seen with
  | nil =>
    obtain ⟨n, rfl⟩ : ∃ k, n = k + 1 := ⟨n - 1, by omega⟩
    simp only [List.flatMap_nil, List.nil_append, hbrace]
    simp [flagsLoop, trimPct_name (hname f (by simp)), hseen f (by simp), advance]
  | cons f' fs ih =>
    obtain ⟨n, rfl⟩ : ∃ k, n = k + 1 := ⟨n - 1, by omega⟩
    set tail : Text := fs.flatMap (fun x => ',' :: ' ' :: x) ++ '}' :: r with htail
    have he : (f' :: fs).flatMap (fun x => ',' :: ' ' :: x) ++ '}' :: r
        = ',' :: ' ' :: (f' ++ tail) := by simp [htail]
    have hlabel : lexAll (f' ++ tail) = .tok .labelOrKeyword f' :: lexAll tail := by
      refine lexAll_name (hname f' (by simp)) ?_
      cases fs with
      | nil => exact stop_cons (by simp) _
      | cons _ _ => exact stop_cons (by simp) _
    have hcomma : lexAll (',' :: ' ' :: (f' ++ tail))
        = .tok .comma [','] :: .tok .labelOrKeyword f' :: lexAll tail := by
      obtain ⟨_, _, _, _, _, _, _, p8⟩ := lexAll_punct (' ' :: (f' ++ tail))
      rw [p8, lexAll_blank, hlabel]
    rw [he, hcomma] at hn ⊢
    simp only [List.length_cons] at hn
    simp only [List.nodup_cons] at hnd
    have h := ih f' (fun x hx => hname x (by simp [List.mem_cons.mp hx]))
      (by simpa using hnd.2) (f :: seen)
      (by
        intro x hx
        simp only [List.mem_cons, not_or]
        refine ⟨?_, hseen x (by simp [List.mem_cons.mp hx])⟩
        rintro rfl
        exact hnd.1 hx) n (by omega)
    simp [flagsLoop, trimPct_name (hname f (by simp)), hseen f (by simp), advance, h]

theorem filter_sublist {all set : List Text} (h : set.Sublist all) (hnd : all.Nodup) :
    all.filter (fun f => f ∈ set) = set := by
  induction h with
  | slnil => rfl
  | @cons l1 l2 a h ih =>
    simp only [List.nodup_cons] at hnd
    rw [List.filter_cons_of_neg, ih hnd.2]
    simp only [decide_eq_true_eq]
    exact fun ha => hnd.1 (h.subset ha)
  | @cons_cons l1 l2 a h ih =>
    simp only [List.nodup_cons] at hnd
    rw [List.filter_cons_of_pos (by simp)]
    congr 1
    refine Eq.trans (List.filter_congr ?_) (ih hnd.2)
    intro x hx
    have : x ≠ a := by rintro rfl; exact hnd.1 hx
    simp [this]

/-! ### Everything -/

theorem decode_escapeName (name : Text) : Keyword.decode (escapeName name) = none := by
  unfold escapeName
  split
  · unfold Keyword.decode
    simp
  · rename_i h
    simpa using h

theorem lexAll_escapeName {name r : Text} (h : IsName name) (hr : Stop r) :
    lexAll (escapeName name ++ r) = .tok .labelOrKeyword (escapeName name) :: lexAll r := by
  unfold escapeName
  split
  · exact lexAll_pctName h hr
  · exact lexAll_name h hr

theorem asLabel_escapeName {name : Text} (h : IsName name) :
    asLabel (.mk .label (escapeName name) []) = some name := by
  unfold escapeName
  split
  · rfl
  · exact asLabel_name h

/-- A payload in parentheses. -/
theorem payload_write {d : Nat} {t : Ty} {v : Val F D} (hg : Good E d t v) (r : Text) :
    ∃ n, payload (parseNode d) (lexAll ('(' :: write E v ++ ')' :: r)) = some (n, lexAll r) ∧
      nextIs .parenOpen (lexAll ('(' :: write E v ++ ')' :: r)) = true ∧ toVal E t n = some v := by
  obtain ⟨n, h1, h2⟩ := hg (')' :: r) (follow_cons (by simp) r)
  obtain ⟨_, _, p3, _⟩ := lexAll_punct (write E v ++ ')' :: r)
  obtain ⟨_, _, _, p4, _⟩ := lexAll_punct r
  refine ⟨n, ?_, ?_, h2⟩
  · rw [List.cons_append, p3]
    simp only [payload, expect, advance, if_true, h1, p4]
    simp
  · rw [List.cons_append, p3]
    simp [nextIs]

theorem toCase_some {cs : List (Text × Option Ty)} {case : Text} {t : Ty} {v : Val F D} {n : Node}
    (hnd : (cs.map Prod.fst).Nodup) (hm : (case, some t) ∈ cs) (h : toVal E t n = some v) :
    toCase E cs case (some n) = some (.variant case (some v)) := by
  induction cs with
  | nil => cases hm
  | cons c cs ih =>
    obtain ⟨name, p⟩ := c
    simp only [List.map_cons, List.nodup_cons] at hnd
    rcases List.mem_cons.mp hm with heq | hm
    · cases heq
      simp [toCase, toPayload, h]
    · have : name ≠ case := by
        rintro rfl
        exact hnd.1 (List.mem_map_of_mem hm)
      simp [toCase, this, ih hnd.2 hm]

theorem toCase_none {cs : List (Text × Option Ty)} {case : Text}
    (hnd : (cs.map Prod.fst).Nodup) (hm : (case, none) ∈ cs) :
    toCase E cs case none = some (.variant case none) := by
  induction cs with
  | nil => cases hm
  | cons c cs ih =>
    obtain ⟨name, p⟩ := c
    simp only [List.map_cons, List.nodup_cons] at hnd
    rcases List.mem_cons.mp hm with heq | hm
    · cases heq
      simp [toCase, toPayload]
    · have : name ≠ case := by
        rintro rfl
        exact hnd.1 (List.mem_map_of_mem hm)
      simp [toCase, this, ih hnd.2 hm]

theorem good_keyword {kw : Text} {k : Keyword} (h : Keyword.decode kw = some k) {r : Text}
    (hr : Stop r) : lexAll (kw ++ r) = .tok .labelOrKeyword kw :: lexAll r :=
  lexAll_name (isName_keyword (by simp [h])) hr

theorem float_write {d : Nat} {x : Text} (hx : IsFloatText x) {r : Text} (hr : Follow r) :
    parseNode (d + 1) (lexAll (x ++ r)) = some (.mk .number x [], lexAll r) := by
  rcases hx with rfl | rfl | rfl | hx
  · rw [good_keyword (k := .inf) rfl hr.stop]; rfl
  · rw [lexAll_minusInf]; rfl
  · rw [good_keyword (k := .nan) rfl hr.stop]; rfl
  · rw [lexAll_decimal hx hr.stop]; rfl

/-- The main lemma. -/
theorem good (hE : FloatsOk E) (d : Nat) (t : Ty) (v : Val F D) (ht : HasTy t v)
    (hd : depth v ≤ d) : Good E d t v := by
  induction d generalizing t v with
  | zero =>
    exfalso
    have : 0 < depth v := by
      unfold depth
      split <;> omega
    omega
  | succ d ih =>
    intro r hr
    cases ht with
    | bool b =>
      cases b
      · refine ⟨.mk .boolFalse "false".toList [], ?_, by simp [toVal, Node.ty]⟩
        rw [show write E (.bool false : Val F D) = "false".toList by simp [write],
          good_keyword (k := .false) rfl hr.stop]
        rfl
      · refine ⟨.mk .boolTrue "true".toList [], ?_, by simp [toVal, Node.ty]⟩
        rw [show write E (.bool true : Val F D) = "true".toList by simp [write],
          good_keyword (k := .true) rfl hr.stop]
        rfl
    | sint bits i h1 h2 =>
      refine ⟨.mk .number (showInt i) [], ?_, ?_⟩
      · rw [show write E (.int true bits i : Val F D) = showInt i by simp [write],
          lexAll_decimal (isDecimal_showInt i) hr.stop]
        rfl
      · simp only [toVal, Node.ty, Node.text]
        rw [readInt_showInt true bits i (by simpa using h1) (by simpa using h2)]
        rfl
    | uint bits i h1 h2 =>
      refine ⟨.mk .number (showInt i) [], ?_, ?_⟩
      · rw [show write E (.int false bits i : Val F D) = showInt i by simp [write],
          lexAll_decimal (isDecimal_showInt i) hr.stop]
        rfl
      · simp only [toVal, Node.ty, Node.text]
        rw [readInt_showInt false bits i (by simpa using h1) (by simpa using h2)]
        rfl
    | f32 f =>
      refine ⟨.mk .number (E.showF32 f) [], ?_, ?_⟩
      · rw [show write E (.f32 f : Val F D) = E.showF32 f by simp [write]]
        exact float_write (hE.text32 f) hr
      · simp [toVal, Node.ty, Node.text, hE.read32 f]
    | f64 f =>
      refine ⟨.mk .number (E.showF64 f) [], ?_, ?_⟩
      · rw [show write E (.f64 f : Val F D) = E.showF64 f by simp [write]]
        exact float_write (hE.text64 f) hr
      · simp [toVal, Node.ty, Node.text, hE.read64 f]
    | char c =>
      refine ⟨.mk .char ('\'' :: writeChar E c ++ ['\'']) [], ?_, ?_⟩
      · rw [show write E (.char c : Val F D) ++ r = '\'' :: writeChar E c ++ '\'' :: r by simp [write],
          lexAll_char]
        rfl
      · simp only [toVal]
        rw [asChar_write]
        rfl
    | string s =>
      refine ⟨.mk .string ('"' :: s.flatMap (writeChar E) ++ ['"']) [], ?_, ?_⟩
      · rw [show write E (.string s : Val F D) ++ r = '"' :: s.flatMap (writeChar E) ++ '"' :: r by
            simp [write],
          lexAll_string s r (fun _ => stop_not_quote hr.stop)]
        rfl
      · simp only [toVal]
        rw [asStr_write]
        rfl
    | list t vs h =>
      simp only [depth] at hd
      obtain ⟨ns, h1, h2⟩ := commaSeparated_write E (d := d) (close := ']') (e := .bracketClose)
        (by simp) (vs.map fun v => (t, v)) (by
          intro q hq
          obtain ⟨v, hv, rfl⟩ := List.mem_map.mp hq
          exact ih t v (h v hv) (by have := depthAll_mem hv; omega)) r
      rw [List.map_map, show (Prod.snd ∘ fun v : Val F D => (t, v)) = id from rfl, List.map_id] at h1
      refine ⟨.mk .list [] ns, ?_, ?_⟩
      · rw [show write E (.list vs : Val F D) ++ r = '[' :: (sepBy (writeAll E vs) ++ ']' :: r) by
          simp [write]]
        obtain ⟨_, _, _, _, p5, _⟩ := lexAll_punct (sepBy (writeAll E vs) ++ ']' :: r)
        rw [p5]
        simp only [parseNode, parseNodeInner, advance, h1]
        rfl
      · simp [toVal, Node.ty, Node.children, mapM_of E h2]
    | tuple ts vs hne h =>
      simp only [depth] at hd
      obtain ⟨ps, rfl, rfl, hps⟩ := allHaveTy_pairs h
      obtain ⟨ns, h1, h2⟩ := commaSeparated_write E (d := d) (close := ')') (e := .parenClose)
        (by simp) ps (by
          intro q hq
          exact ih q.1 q.2 (hps q hq) (by
            have := depthAll_mem (List.mem_map_of_mem (f := Prod.snd) hq); omega)) r
      have hlen := h2.length_eq
      refine ⟨.mk .tuple [] ns, ?_, ?_⟩
      · rw [show write E (.tuple (ps.map Prod.snd) : Val F D) ++ r
            = '(' :: (sepBy (writeAll E (ps.map Prod.snd)) ++ ')' :: r) by simp [write]]
        obtain ⟨_, _, p3, _⟩ := lexAll_punct (sepBy (writeAll E (ps.map Prod.snd)) ++ ')' :: r)
        rw [p3]
        have hns : ns.isEmpty = false := by
          cases ns with
          | nil =>
            have : ps = [] := List.length_eq_zero_iff.mp (by simpa using hlen)
            subst this
            exact absurd rfl hne
          | cons _ _ => rfl
        simp only [parseNode, parseNodeInner, advance, h1, hns]
        rfl
      · simp [toVal, Node.ty, Node.children, toTuple_of E h2, hlen]
    | record fs vs hnd hname h =>
      simp only [depth] at hd
      obtain ⟨qs, rfl, rfl, hqs⟩ := fieldsHaveTy_triples h
      have hnd' : (qs.map Prod.fst).Nodup := by
        rw [List.map_map] at hnd
        exact hnd
      have hname' : ∀ q ∈ qs, IsName q.1 := fun q hq =>
        hname (q.1, q.2.1) (List.mem_map_of_mem (f := fun q : Field F D => (q.1, q.2.1)) hq)
      have hgood : ∀ q ∈ qs, Good E d q.2.1 q.2.2 := fun q hq => ih _ _ (hqs q hq) (by
        have := depthFields_mem (List.mem_map_of_mem (f := fun q : Field F D => (q.1, q.2.2)) hq)
        dsimp only at this
        omega)
      set ws := qs.filter (fun q => Written q.2.2) with hws
      have hsub : ws.Sublist qs := List.filter_sublist
      have hwt := writeFields_eq E qs
      rw [← hws] at hwt
      obtain ⟨ns, kvs, hparse, hrec, hkv⟩ : ∃ ns kvs,
          parseNode (d + 1) (lexAll (write E (.record (qs.map fun q => (q.1, q.2.2)) : Val F D) ++ r))
            = some (.mk .record [] ns, lexAll r) ∧ asRecord ns = some kvs ∧
          List.Forall₂ (fun q kv => kv.1 = q.1 ∧ toVal E q.2.1 kv.2 = some q.2.2) ws kvs := by
        cases hw : ws with
        | nil =>
          refine ⟨[], [], ?_, rfl, .nil⟩
          rw [hw] at hwt
          rw [show write E (.record (qs.map fun q => (q.1, q.2.2)) : Val F D) ++ r
            = '{' :: ':' :: '}' :: r by simp [write, hwt]]
          obtain ⟨p1, _⟩ := lexAll_punct (':' :: '}' :: r)
          obtain ⟨_, _, _, _, _, _, p7, _⟩ := lexAll_punct ('}' :: r)
          obtain ⟨_, p2, _⟩ := lexAll_punct r
          rw [p1, p7, p2]
          rfl
        | cons q ws' =>
          rw [hw] at hwt hsub
          obtain ⟨ns, kvs, h1, h2, h3⟩ := recordLoop_write E (d := d) q ws'
            (fun x hx => hgood x (hsub.subset hx)) (fun x hx => hname' x (hsub.subset hx))
            ((hsub.map Prod.fst).nodup hnd') [] (by simp) r _ (Nat.lt_succ_self _)
          refine ⟨ns, kvs, ?_, h2, h3⟩
          set tail : Text := ':' :: ' ' :: write E q.2.2 ++
            (ws'.map (fun q => q.1 ++ ':' :: ' ' :: write E q.2.2)).flatMap
              (fun x => ',' :: ' ' :: x) ++ '}' :: r with htail
          rw [show write E (.record (qs.map fun q => (q.1, q.2.2)) : Val F D) ++ r
            = '{' :: (q.1 ++ tail) by
              simp only [write, hwt, List.map_cons, sepBy_cons, htail]
              simp]
          obtain ⟨p1, _⟩ := lexAll_punct (q.1 ++ tail)
          have hs : Stop tail := by
            rw [htail]
            exact stop_cons (by simp) _
          rw [p1, lexAll_name (hname' q (hsub.subset (by simp))) hs]
          have hnext : nextIs .colon (lexAll tail) = true := by
            obtain ⟨_, _, _, _, _, _, p7, _⟩ := lexAll_punct (' ' :: (write E q.2.2 ++
              (ws'.map (fun q => q.1 ++ ':' :: ' ' :: write E q.2.2)).flatMap
                (fun x => ',' :: ' ' :: x) ++ '}' :: r))
            simp only [List.cons_append] at htail p7
            rw [htail, p7]
            simp [nextIs]
          simp only [parseNode, parseNodeInner, advance, recordOrFlags]
          simp [hnext, h1]
      refine ⟨_, hparse, ?_⟩
      have hl := lookup_of E hkv ((hsub.map Prod.fst).nodup hnd')
      have := toFields_of E (qs := qs) (kvs := kvs) (by
        intro q hq
        by_cases hw : Written q.2.2 = true
        · exact .inl (hl.1 q (List.mem_filter.mpr ⟨hq, by simpa using hw⟩))
        · right
          have hv : q.2.2 = .option none := by
            unfold Written at hw
            split at hw
            · assumption
            · exact absurd rfl hw
          have ht := hqs q hq
          refine ⟨hl.2 _ ?_, ?_, hv⟩
          · intro hm
            obtain ⟨x, hx, hxq⟩ := List.mem_map.mp hm
            have hxw := (List.mem_filter.mp hx)
            have : x = q := List.inj_on_of_nodup_map hnd' hxw.1 hq hxq
            subst this
            exact hw hxw.2
          · rw [hv] at ht
            generalize q.2.1 = t at ht
            cases ht
            rfl)
      simp only [toVal, Node.ty, Node.children, hrec, this]
      simp
    | variant cs case t v hnd hm hname h =>
      simp only [depth] at hd
      obtain ⟨n, h1, h2, h3⟩ := payload_write E (ih t v h (by omega)) r
      have hs : Stop ('(' :: write E v ++ ')' :: r) := stop_cons (by simp) _
      refine ⟨.mk .variantWithPayload [] [.mk .label (escapeName case) [], n], ?_, ?_⟩
      · rw [show write E (.variant case (some v) : Val F D) ++ r
            = escapeName case ++ ('(' :: write E v ++ ')' :: r) by simp [write],
          lexAll_escapeName hname hs]
        simp only [parseNode, parseNodeInner, advance, decode_escapeName, h2, h1]
        rfl
      · simp only [toVal, Node.ty, Node.children, asLabel_escapeName hname]
        exact toCase_some E hnd hm h3
    | variantNone cs case hnd hm hname =>
      refine ⟨.mk .label (escapeName case) [], ?_, ?_⟩
      · rw [show write E (.variant case none : Val F D) = escapeName case by simp [write],
          lexAll_escapeName hname hr.stop]
        simp only [parseNode, parseNodeInner, advance, decode_escapeName,
          nextIs_follow hr .parenOpen (by decide)]
        rfl
      · simp only [toVal, Node.ty, asLabel_escapeName hname]
        exact toCase_none E hnd hm
    | enum cs case hm hname =>
      refine ⟨.mk .label (escapeName case) [], ?_, ?_⟩
      · rw [show write E (.enum case : Val F D) = escapeName case by simp [write],
          lexAll_escapeName hname hr.stop]
        simp only [parseNode, parseNodeInner, advance, decode_escapeName,
          nextIs_follow hr .parenOpen (by decide)]
        rfl
      · simp [toVal, asLabel_escapeName hname, hm]
    | some t v h =>
      simp only [depth] at hd
      obtain ⟨n, h1, h2, h3⟩ := payload_write E (ih t v h (by omega)) r
      have hs : Stop ('(' :: write E v ++ ')' :: r) := stop_cons (by simp) _
      refine ⟨.mk .optionSome [] [n], ?_, by simp [toVal, Node.ty, Node.children, h3]⟩
      rw [show write E (.option (some v) : Val F D) ++ r
            = "some".toList ++ ('(' :: write E v ++ ')' :: r) by simp [write],
        good_keyword (k := .some) rfl hs]
      simp only [parseNode, parseNodeInner, advance, h1]
      rfl
    | none t =>
      refine ⟨.mk .optionNone [] [], ?_, by simp [toVal, Node.ty]⟩
      rw [show write E (.option none : Val F D) = "none".toList by simp [write],
        good_keyword (k := .none) rfl hr.stop]
      rfl
    | okPayload t err v h =>
      simp only [depth] at hd
      obtain ⟨n, h1, h2, h3⟩ := payload_write E (ih t v h (by omega)) r
      have hs : Stop ('(' :: write E v ++ ')' :: r) := stop_cons (by simp) _
      refine ⟨.mk .resultOk [] [n], ?_, by simp [toVal, toPayload, Node.ty, Node.children, h3]⟩
      rw [show write E (.result true (some v) : Val F D) ++ r
            = "ok".toList ++ ('(' :: write E v ++ ')' :: r) by simp [write],
        good_keyword (k := .ok) rfl hs]
      simp only [parseNode, parseNodeInner, advance, h1, h2,
        show Keyword.decode "ok".toList = some .ok from rfl]
      rfl
    | ok err =>
      refine ⟨.mk .resultOk [] [], ?_, by simp [toVal, toPayload, Node.ty, Node.children]⟩
      rw [show write E (.result true none : Val F D) = "ok".toList by simp [write],
        good_keyword (k := .ok) rfl hr.stop]
      simp only [parseNode, parseNodeInner, advance,
        show Keyword.decode "ok".toList = some .ok from rfl,
        nextIs_follow hr .parenOpen (by decide)]
      rfl
    | errPayload ok t v h =>
      simp only [depth] at hd
      obtain ⟨n, h1, h2, h3⟩ := payload_write E (ih t v h (by omega)) r
      have hs : Stop ('(' :: write E v ++ ')' :: r) := stop_cons (by simp) _
      refine ⟨.mk .resultErr [] [n], ?_, by simp [toVal, toPayload, Node.ty, Node.children, h3]⟩
      rw [show write E (.result false (some v) : Val F D) ++ r
            = "err".toList ++ ('(' :: write E v ++ ')' :: r) by simp [write],
        good_keyword (k := .err) rfl hs]
      simp only [parseNode, parseNodeInner, advance, h1, h2,
        show Keyword.decode "err".toList = some .err from rfl]
      rfl
    | err ok =>
      refine ⟨.mk .resultErr [] [], ?_, by simp [toVal, toPayload, Node.ty, Node.children]⟩
      rw [show write E (.result false none : Val F D) = "err".toList by simp [write],
        good_keyword (k := .err) rfl hr.stop]
      simp only [parseNode, parseNodeInner, advance,
        show Keyword.decode "err".toList = some .err from rfl,
        nextIs_follow hr .parenOpen (by decide)]
      rfl
    | flags all set hnd hname hsub =>
      refine ⟨.mk .flags [] (set.map fun x => .mk .label x []), ?_, ?_⟩
      · cases set with
        | nil =>
          rw [show write E (.flags [] : Val F D) ++ r = '{' :: '}' :: r by simp [write, sepBy]]
          obtain ⟨p1, _⟩ := lexAll_punct ('}' :: r)
          obtain ⟨_, p2, _⟩ := lexAll_punct r
          rw [p1, p2]
          rfl
        | cons f fs =>
          have hnd' : (f :: fs).Nodup := hsub.nodup hnd
          have hl := flagsLoop_write f fs (fun x hx => hname x (hsub.subset hx)) hnd' [] (by simp) r _
            (Nat.lt_succ_self _)
          set tail : Text := fs.flatMap (fun x => ',' :: ' ' :: x) ++ '}' :: r with htail
          have hfollow : Follow tail := by
            rw [htail]
            cases fs with
            | nil => exact follow_cons (by simp) _
            | cons _ _ => exact follow_cons (by simp) _
          rw [show write E (.flags (f :: fs) : Val F D) ++ r = '{' :: (f ++ tail) by
            simp only [write, sepBy_cons, htail]; simp]
          obtain ⟨p1, _⟩ := lexAll_punct (f ++ tail)
          rw [p1, lexAll_name (hname f (hsub.subset (by simp))) hfollow.stop]
          simp only [parseNode, parseNodeInner, advance, recordOrFlags]
          simp only [nextIs_follow hfollow .colon (by decide), hl]
          simp
      · have h1 : (set.map fun x => Node.mk .label x []).map Node.text = set := by
          rw [List.map_map]
          exact List.map_id _
        simp only [toVal, Node.ty, Node.children, ne_eq, not_true_eq_false, if_false, h1,
          filter_sublist hsub hnd]
        rw [if_pos]
        · simp only [List.all_map, List.all_eq_true, Function.comp, Node.text, decide_eq_true_eq]
          exact fun x hx => decide_eq_true (hsub.subset hx)

end Verif.Wave
