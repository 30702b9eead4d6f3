import Verif.Reader.Spec
import Verif.Leb.Lemmas
/-! Closure properties of `WellBehaved`. -/
namespace Verif.Reader
open Verif.Leb

@[simp] theorem extend_buffer (r : Reader) (s) : (r.extend s).buffer = r.buffer ++ s := rfl
@[simp] theorem extend_position (r : Reader) (s) : (r.extend s).position = r.position := rfl
@[simp] theorem extend_originalOffset (r : Reader) (s) :
    (r.extend s).originalOffset = r.originalOffset := rfl
@[simp] theorem extend_originalPosition (r : Reader) (s) :
    (r.extend s).originalPosition = r.originalPosition := rfl

theorem bind_apply (f : R α) (g : α → R β) (r : Reader) :
    (f >>= g) r = match f r with
      | .error e => .error e
      | .ok (a, r') => g a r' := rfl

theorem pure_apply (a : α) (r : Reader) : (pure a : R α) r = .ok (a, r) := rfl

theorem bind_ok {f : R α} {g : α → R β} {r r' : Reader} {b : β} :
    (f >>= g) r = .ok (b, r') ↔ ∃ a r1, f r = .ok (a, r1) ∧ g a r1 = .ok (b, r') := by
  rw [bind_apply]
  constructor
  · intro h
    split at h
    · cases h
    · exact ⟨_, _, by assumption, h⟩
  · rintro ⟨a, r1, h1, h2⟩
    rw [h1]; exact h2

theorem bind_error {f : R α} {g : α → R β} {r : Reader} {e : Err} :
    (f >>= g) r = .error e ↔ f r = .error e ∨ ∃ a r1, f r = .ok (a, r1) ∧ g a r1 = .error e := by
  rw [bind_apply]
  constructor
  · intro h
    split at h
    · cases h; exact .inl (by assumption)
    · exact .inr ⟨_, _, by assumption, h⟩
  · rintro (h | ⟨a, r1, h1, h2⟩)
    · rw [h]
    · rw [h1]; exact h2

theorem WBAt.bind {f : R α} {g : α → R β} {r : Reader} (hf : WBAt f r)
    (hg : ∀ a r', f r = .ok (a, r') → WBAt (g a) r') : WBAt (f >>= g) r where
  bounds := by
    intro b r' h
    obtain ⟨a, r1, h1, h2⟩ := bind_ok.mp h
    have b1 := hf.bounds _ _ h1
    have b2 := (hg _ _ h1).bounds _ _ h2
    refine ⟨b2.1.trans b1.1, b2.2.1.trans b1.2.1, by omega, ?_⟩
    rw [← b1.1]; exact b2.2.2.2
  ok_ext := by
    intro s b r' h
    obtain ⟨a, r1, h1, h2⟩ := bind_ok.mp h
    exact bind_ok.mpr ⟨_, _, hf.ok_ext s _ _ h1, (hg _ _ h1).ok_ext s _ _ h2⟩
  msg_ext := by
    intro s m off h
    rcases bind_error.mp h with h1 | ⟨a, r1, h1, h2⟩
    · exact bind_error.mpr (.inl (hf.msg_ext s _ _ h1))
    · exact bind_error.mpr (.inr ⟨_, _, hf.ok_ext s _ _ h1, (hg _ _ h1).msg_ext s _ _ h2⟩)
  eof_hint := by
    intro off hint h
    rcases bind_error.mp h with h1 | ⟨a, r1, h1, h2⟩
    · obtain ⟨p, q⟩ := hf.eof_hint _ _ h1
      refine ⟨p, fun s hs => ?_⟩
      obtain ⟨o, k, e⟩ := q s hs
      exact ⟨o, k, bind_error.mpr (.inl e)⟩
    · obtain ⟨p, q⟩ := (hg _ _ h1).eof_hint _ _ h2
      refine ⟨p, fun s hs => ?_⟩
      obtain ⟨o, k, e⟩ := q s hs
      exact ⟨o, k, bind_error.mpr (.inr ⟨_, _, hf.ok_ext s _ _ h1, e⟩)⟩

theorem WBAt.ite {c : Prop} [Decidable c] {f g : R α} {r : Reader} (hf : c → WBAt f r)
    (hg : ¬ c → WBAt g r) : WBAt (if c then f else g) r := by
  by_cases h : c
  · rw [if_pos h]; exact hf h
  · rw [if_neg h]; exact hg h

theorem WellBehaved.bind {f : R α} {g : α → R β} (hf : WellBehaved f)
    (hg : ∀ a, WellBehaved (g a)) : WellBehaved (f >>= g) := by
  intro r hr
  refine (hf r hr).bind fun a r' h => ?_
  have b := (hf r hr).bounds _ _ h
  exact hg a r' (by rw [b.1]; exact b.2.2.2)

theorem WellBehaved.pure (a : α) : WellBehaved (pure a : R α) := by
  intro r hr
  constructor
  · intro a' r' h; cases h; exact ⟨rfl, rfl, Nat.le_refl _, hr⟩
  · intro s a' r' h; cases h; rfl
  · intro s m off h; cases h
  · intro off hint h; cases h

theorem WellBehaved.fail (m : String) (o : Nat) : WellBehaved (R.fail m o : R α) := by
  intro r hr
  constructor
  · intro a' r' h; cases h
  · intro s a' r' h; cases h
  · intro s m off h; cases h; rfl
  · intro off hint h; cases h

theorem WellBehaved.readPos : WellBehaved readPos := by
  intro r hr
  constructor
  · intro a' r' h; cases h; exact ⟨rfl, rfl, Nat.le_refl _, hr⟩
  · intro s a' r' h; cases h; rfl
  · intro s m off h; cases h
  · intro off hint h; cases h

theorem WellBehaved.ite {c : Prop} [Decidable c] {f g : R α} (hf : WellBehaved f)
    (hg : WellBehaved g) : WellBehaved (if c then f else g) := by
  split <;> assumption

theorem readBytes_def (n : Nat) (r : Reader) : readBytes n r =
    if n ≤ r.buffer.length - r.position then
      .ok ((r.buffer.drop r.position).take n, { r with position := r.position + n })
    else .error (r.eofErr (n - (r.buffer.length - r.position))) := by
  unfold readBytes ensureHasBytes
  simp only [Reader.bytesRemaining, Reader.maxPosition]
  by_cases h : n ≤ r.buffer.length - r.position
  · simp [h]
  · simp [h]

theorem WellBehaved.readBytes (n : Nat) : WellBehaved (readBytes n) := by
  intro r hr
  by_cases hle : n ≤ r.buffer.length - r.position
  · have e := readBytes_def n r
    rw [if_pos hle] at e
    constructor
    · intro a r' h
      rw [e] at h; cases h
      refine ⟨rfl, rfl, ?_, ?_⟩ <;> simp only <;> omega
    · intro s a r' h
      rw [e] at h; cases h
      rw [readBytes_def, if_pos (by simp; omega)]
      simp only [extend_buffer, extend_position]
      rw [List.drop_append_of_le_length hr, List.take_append_of_le_length (by simp; omega)]
      rfl
    · intro s m off h; rw [e] at h; cases h
    · intro off hint h; rw [e] at h; cases h
  · have e := readBytes_def n r
    rw [if_neg hle] at e
    constructor
    · intro a r' h; rw [e] at h; cases h
    · intro s a r' h; rw [e] at h; cases h
    · intro s m off h; rw [e] at h; cases h
    · intro off hint h
      rw [e] at h; cases h
      refine ⟨by omega, fun s hs => ?_⟩
      rw [readBytes_def, if_neg (by simp; omega)]
      exact ⟨_, _, rfl⟩

theorem WellBehaved.readU8 : WellBehaved readU8 := by
  intro r hr
  constructor
  · intro a r' h
    unfold Reader.readU8 at h
    split at h
    · rename_i b hb
      have := (List.getElem?_eq_some_iff.mp hb).1
      cases h
      refine ⟨rfl, rfl, ?_, ?_⟩ <;> simp only <;> omega
    · cases h
  · intro s a r' h
    unfold Reader.readU8 at h ⊢
    split at h
    · rename_i b hb
      have := (List.getElem?_eq_some_iff.mp hb).1
      cases h
      simp only [extend_buffer, extend_position, List.getElem?_append_left this, hb]
      rfl
    · cases h
  · intro s m off h
    unfold Reader.readU8 at h
    split at h <;> cases h
  · intro off hint h
    unfold Reader.readU8 at h
    split at h
    · cases h
    · rename_i hb
      cases h
      refine ⟨by decide, fun s hs => ?_⟩
      have : s = [] := by cases s; rfl; simp at hs
      subst this
      refine ⟨r.originalPosition, 1, ?_⟩
      unfold Reader.readU8
      simp only [extend_buffer, List.append_nil, extend_position, hb]
      rfl

theorem WellBehaved.readU32 : WellBehaved readU32 :=
  (WellBehaved.readBytes 4).bind fun _ => .pure _

theorem WellBehaved.readU64 : WellBehaved readU64 :=
  (WellBehaved.readBytes 8).bind fun _ => .pure _

theorem WellBehaved.readU7 : WellBehaved readU7 :=
  WellBehaved.readU8.bind fun _ => .ite (WellBehaved.readPos.bind fun _ => .fail _ _) (.pure _)

theorem WBAt.readVarUBig (W : Nat) (nm : String) (res : BitVec W) (shift : Nat) (r : Reader)
    (hr : r.position ≤ r.buffer.length) : WBAt (readVarUBig W nm res shift) r := by
  have : Reader.readVarUBig W nm res shift = (Reader.readU8 >>= fun byte =>
      if shift ≥ W - 7 ∧ byte.toNat >>> (W - shift) ≠ 0 then
        (Reader.readPos >>= fun p => R.fail (if byte &&& 0x80 ≠ 0 then
            "invalid var_" ++ nm ++ ": integer representation too long"
          else "invalid var_" ++ nm ++ ": integer too large") (p - 1))
      else
        if byte &&& 0x80 = 0 then
          Pure.pure (res ||| ((byte &&& 0x7F).toBitVec.setWidth W <<< shift))
        else Reader.readVarUBig W nm (res ||| ((byte &&& 0x7F).toBitVec.setWidth W <<< shift))
          (shift + 7)) := by
    funext r
    rw [readVarUBig_unfold, bind_apply]
    cases Reader.readU8 r with
    | error e => rfl
    | ok p =>
      obtain ⟨b, r'⟩ := p
      dsimp only
      repeat' split
      all_goals simp_all [bind_apply, pure_apply, Reader.readPos, R.fail]
  rw [this]
  refine (WellBehaved.readU8 r hr).bind fun byte r' h => ?_
  have b := (WellBehaved.readU8 r hr).bounds _ _ h
  have hr' : r'.position ≤ r'.buffer.length := by rw [b.1]; exact b.2.2.2
  have hdec := readU8_lt h
  refine .ite (fun _ => ?_) (fun _ => .ite (fun _ => ?_) (fun _ => ?_))
  · exact (WellBehaved.readPos.bind fun _ => .fail _ _) r' hr'
  · exact WellBehaved.pure _ r' hr'
  · exact WBAt.readVarUBig W nm _ _ r' hr'
termination_by r.buffer.length - r.position

theorem WBAt.readVarSLoop (S W thr : Nat) (nm : String) (sp : Bool) (res : BitVec S)
    (shift : Nat) (r : Reader)
    (hr : r.position ≤ r.buffer.length) : WBAt (readVarSLoop S W thr nm sp res shift) r := by
  have : Reader.readVarSLoop S W thr nm sp res shift = (Reader.readU8 >>= fun byte =>
      if shift ≥ thr then
        if (byte &&& 0x80 ≠ 0) ∨ ((byte.toBitVec <<< 1).sshiftRight (W - shift) ≠ 0 ∧
            (byte.toBitVec <<< 1).sshiftRight (W - shift) ≠ -1) then
          (Reader.readPos >>= fun p => R.fail (if (byte &&& 0x80 ≠ 0) ∨ !sp then
              "invalid var_" ++ nm ++ ": integer representation too long"
            else "invalid var_" ++ nm ++ ": integer too large") (p - 1))
        else Pure.pure (res ||| ((byte &&& 0x7F).toBitVec.setWidth S <<< shift))
      else
        if byte &&& 0x80 = 0 then
          Pure.pure (((res ||| ((byte &&& 0x7F).toBitVec.setWidth S <<< shift)) <<<
            (S - (shift + 7))).sshiftRight (S - (shift + 7)))
        else Reader.readVarSLoop S W thr nm sp
          (res ||| ((byte &&& 0x7F).toBitVec.setWidth S <<< shift)) (shift + 7)) := by
    funext r
    rw [readVarSLoop_unfold, bind_apply]
    cases Reader.readU8 r with
    | error e => rfl
    | ok p =>
      obtain ⟨b, r'⟩ := p
      dsimp only
      repeat' split
      all_goals simp_all [bind_apply, pure_apply, Reader.readPos, R.fail]
  rw [this]
  refine (WellBehaved.readU8 r hr).bind fun byte r' h => ?_
  have b := (WellBehaved.readU8 r hr).bounds _ _ h
  have hr' : r'.position ≤ r'.buffer.length := by rw [b.1]; exact b.2.2.2
  have hdec := readU8_lt h
  refine .ite (fun _ => .ite (fun _ => ?_) (fun _ => ?_))
    (fun _ => .ite (fun _ => ?_) (fun _ => ?_))
  · exact (WellBehaved.readPos.bind fun _ => .fail _ _) r' hr'
  · exact WellBehaved.pure _ r' hr'
  · exact WellBehaved.pure _ r' hr'
  · exact WBAt.readVarSLoop S W thr nm sp _ _ r' hr'
termination_by r.buffer.length - r.position

theorem WellBehaved.readVarU32 : WellBehaved readVarU32 := by
  intro r hr
  rw [show Reader.readVarU32 = Reader.readVarUBig 32 "u32" 0 0 from
    funext fun r => readVarU_eq (.inl rfl) _ r]
  exact WBAt.readVarUBig _ _ _ _ r hr

theorem WellBehaved.readVarU64 : WellBehaved readVarU64 := by
  intro r hr
  rw [show Reader.readVarU64 = Reader.readVarUBig 64 "u64" 0 0 from
    funext fun r => readVarU_eq (.inr rfl) _ r]
  exact WBAt.readVarUBig _ _ _ _ r hr

theorem WellBehaved.readVarI32 : WellBehaved readVarI32 := by
  intro r hr
  rw [show Reader.readVarI32 = _ from funext readVarI32_eq]
  exact WBAt.readVarSLoop _ _ _ _ _ _ _ r hr

theorem WellBehaved.readVarS33 : WellBehaved readVarS33 := by
  intro r hr
  rw [show Reader.readVarS33 = _ from funext readVarS33_eq]
  exact WBAt.readVarSLoop _ _ _ _ _ _ _ r hr

theorem WellBehaved.readVarI64 : WellBehaved readVarI64 := by
  intro r hr
  exact WBAt.readVarSLoop _ _ _ _ _ _ _ r hr

theorem WellBehaved.skip {f : R Unit} (hf : WellBehaved f) : WellBehaved (skip f) := by
  intro r hr
  have h := hf r hr
  constructor
  · intro a r' he
    unfold Reader.skip at he
    simp only at he
    split at he
    · cases he
    · rename_i r1 h1; cases he; exact h.bounds _ _ h1
  · intro s a r' he
    unfold Reader.skip at he ⊢
    simp only at he ⊢
    split at he
    · cases he
    · rename_i r1 h1
      cases he
      have b := h.bounds _ _ h1
      rw [h.ok_ext s _ _ h1]
      simp only [extend_buffer, extend_position, extend_originalPosition]
      rw [List.drop_append_of_le_length (by rw [b.1]; exact hr),
        List.take_append_of_le_length (by rw [List.length_drop, b.1]; omega)]
  · intro s m off he
    unfold Reader.skip at he ⊢
    simp only at he ⊢
    split at he
    · rename_i e h1; cases he; rw [h.msg_ext s _ _ h1]
    · cases he
  · intro off hint he
    unfold Reader.skip at he ⊢
    simp only at he ⊢
    split at he
    · rename_i e h1; cases he
      obtain ⟨p, q⟩ := h.eof_hint _ _ h1
      refine ⟨p, fun s hs => ?_⟩
      obtain ⟨o, k, e⟩ := q s hs
      exact ⟨o, k, by rw [e]⟩
    · cases he

theorem WellBehaved.readReader : WellBehaved readReader :=
  WellBehaved.readVarU32.bind fun _ =>
    .skip ((WellBehaved.readBytes _).bind fun _ => .pure _)

theorem WellBehaved.advanceBy (n : Nat) : WellBehaved (advanceBy n) := by
  have : Reader.advanceBy n = (Reader.readBytes n >>= fun _ => Pure.pure ()) := by
    funext r
    rw [bind_apply]
    unfold Reader.readBytes Reader.advanceBy
    cases ensureHasBytes r n <;> rfl
  rw [this]
  exact (WellBehaved.readBytes _).bind fun _ => .pure _

theorem WellBehaved.skipString : WellBehaved skipString :=
  WellBehaved.readVarU32.bind fun _ => .ite (WellBehaved.readPos.bind fun _ => .fail _ _)
    (.advanceBy _)

theorem WellBehaved.readSize (l : Nat) (d : String) : WellBehaved (readSize l d) :=
  WellBehaved.readPos.bind fun _ => WellBehaved.readVarU32.bind fun _ => .ite (.fail _ _) (.pure _)

theorem WellBehaved.internalReadString (n : Nat) : WellBehaved (internalReadString n) :=
  (WellBehaved.readBytes n).bind fun _ =>
    .ite (.pure _) (WellBehaved.readPos.bind fun _ => .fail _ _)

theorem WellBehaved.readString : WellBehaved readString :=
  WellBehaved.readVarU32.bind fun _ =>
    .ite (WellBehaved.readPos.bind fun _ => .fail _ _) (.internalReadString _)

theorem WellBehaved.readUnlimitedString : WellBehaved readUnlimitedString :=
  WellBehaved.readVarU32.bind fun _ => .internalReadString _

theorem WellBehaved.readHeaderVersion : WellBehaved readHeaderVersion :=
  (WellBehaved.readBytes 4).bind fun _ =>
    .ite (WellBehaved.readPos.bind fun _ => .fail _ _) .readU32

theorem WellBehaved.readMany {f : R α} (hf : WellBehaved f) : ∀ n, WellBehaved (readMany f n)
  | 0 => .pure _
  | n + 1 => hf.bind fun _ => (WellBehaved.readMany hf n).bind fun _ => .pure _

theorem WellBehaved.readIter {f : R α} (hf : WellBehaved f) (l : Nat) (d : String) :
    WellBehaved (readIter f l d) :=
  (WellBehaved.readSize l d).bind fun n => .readMany hf n

end Verif.Reader
