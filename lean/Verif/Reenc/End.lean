import Verif.Reenc.Lemmas
/-! Only the byte 0x0B is read as `end`. -/
namespace Verif.Instr
open Verif.Reader Verif.Leb Verif.Types Spec

def NotEnd (op : Operator) : Prop := tokOp op ≠ .end_

theorem neutral_notEnd {op : Operator} (h : Neutral op) : NotEnd op := by
  unfold NotEnd
  rw [h]
  exact nofun

theorem notEnd_opens (o : Blk) (t : BlockType) : NotEnd (.block o t) := by
  cases o <;> exact nofun

variable {f : Features}

theorem visitCode3_notEnd (k : FrameKind) (pos code : Nat) :
    All NotEnd (visitCode3 f k pos code) := by
  unfold visitCode3
  split <;> first
    | exact All.mono (P := Neutral) (.pure rfl) fun _ h => neutral_notEnd h
    | exact All.mono (P := Neutral) (.fmap fun _ => rfl) fun _ h => neutral_notEnd h
    | exact All.mono (neutral_read2 fun _ _ => rfl) fun _ h => neutral_notEnd h
    | exact All.mono neutral_select fun _ h => neutral_notEnd h
    | exact .fmap fun _ => notEnd_opens _ _
    | exact .fail
    | exact .bind fun _ => All.mono (visitFb_neutral _ _) fun _ h => neutral_notEnd h
    | exact .bind fun _ => All.mono (visitFc_neutral _ _) fun _ h => neutral_notEnd h
    | exact .bind fun _ => All.mono (visitFd_neutral _ _ _) fun _ h => neutral_notEnd h
    | exact .bind fun _ => All.mono (visitFe_neutral _ _ _) fun _ h => neutral_notEnd h
    | exact .bind fun _ => .fmap fun _ => neutral_notEnd rfl
    | exact .bind fun _ => .bind fun _ => .pure (neutral_notEnd rfl)
    | exact .bind fun _ => .bind fun _ => .fmap fun _ => neutral_notEnd rfl
    | exact .bind fun _ => .bind fun _ => .pure nofun
    | exact .bind fun _ => .fmap fun _ => notEnd_opens _ _

theorem visitCode2_notEnd (k : FrameKind) (pos code : Nat) :
    All NotEnd (visitCode2 f k pos code) := by
  unfold visitCode2
  split <;> first
    | exact All.mono (P := Neutral) (.pure rfl) fun _ h => neutral_notEnd h
    | exact All.mono (P := Neutral) (.fmap fun _ => rfl) fun _ h => neutral_notEnd h
    | exact All.mono (neutral_read2 fun _ _ => rfl) fun _ h => neutral_notEnd h
    | exact All.mono neutral_select fun _ h => neutral_notEnd h
    | exact .fmap fun _ => notEnd_opens _ _
    | exact visitCode3_notEnd k pos _
    | exact .bind fun _ => All.mono (visitFb_neutral _ _) fun _ h => neutral_notEnd h
    | exact .bind fun _ => All.mono (visitFc_neutral _ _) fun _ h => neutral_notEnd h
    | exact .bind fun _ => All.mono (visitFd_neutral _ _ _) fun _ h => neutral_notEnd h
    | exact .bind fun _ => All.mono (visitFe_neutral _ _ _) fun _ h => neutral_notEnd h
    | exact .bind fun _ => .fmap fun _ => neutral_notEnd rfl
    | exact .bind fun _ => .bind fun _ => .pure (neutral_notEnd rfl)
    | exact .bind fun _ => .bind fun _ => .fmap fun _ => neutral_notEnd rfl
    | exact .bind fun _ => .bind fun _ => .pure nofun
    | exact .bind fun _ => .fmap fun _ => notEnd_opens _ _

theorem visitCode1_notEnd (k : FrameKind) (pos code : Nat) :
    All NotEnd (visitCode1 f k pos code) := by
  unfold visitCode1
  split <;> first
    | exact All.mono (P := Neutral) (.pure rfl) fun _ h => neutral_notEnd h
    | exact All.mono (P := Neutral) (.fmap fun _ => rfl) fun _ h => neutral_notEnd h
    | exact All.mono (neutral_read2 fun _ _ => rfl) fun _ h => neutral_notEnd h
    | exact All.mono neutral_select fun _ h => neutral_notEnd h
    | exact .fmap fun _ => notEnd_opens _ _
    | exact visitCode2_notEnd k pos _
    | exact .bind fun _ => All.mono (visitFb_neutral _ _) fun _ h => neutral_notEnd h
    | exact .bind fun _ => All.mono (visitFc_neutral _ _) fun _ h => neutral_notEnd h
    | exact .bind fun _ => All.mono (visitFd_neutral _ _ _) fun _ h => neutral_notEnd h
    | exact .bind fun _ => All.mono (visitFe_neutral _ _ _) fun _ h => neutral_notEnd h
    | exact .bind fun _ => .fmap fun _ => neutral_notEnd rfl
    | exact .bind fun _ => .bind fun _ => .pure (neutral_notEnd rfl)
    | exact .bind fun _ => .bind fun _ => .fmap fun _ => neutral_notEnd rfl
    | exact .bind fun _ => .bind fun _ => .pure nofun
    | exact .bind fun _ => .fmap fun _ => notEnd_opens _ _

theorem visitCode0_notEnd (k : FrameKind) (pos code : Nat) :
    All NotEnd (visitCode0 f k pos code) := by
  unfold visitCode0
  split <;> first
    | exact All.mono (P := Neutral) (.pure rfl) fun _ h => neutral_notEnd h
    | exact All.mono (P := Neutral) (.fmap fun _ => rfl) fun _ h => neutral_notEnd h
    | exact All.mono (neutral_read2 fun _ _ => rfl) fun _ h => neutral_notEnd h
    | exact All.mono neutral_select fun _ h => neutral_notEnd h
    | exact .fmap fun _ => notEnd_opens _ _
    | exact visitCode1_notEnd k pos _
    | exact .bind fun _ => All.mono (visitFb_neutral _ _) fun _ h => neutral_notEnd h
    | exact .bind fun _ => All.mono (visitFc_neutral _ _) fun _ h => neutral_notEnd h
    | exact .bind fun _ => All.mono (visitFd_neutral _ _ _) fun _ h => neutral_notEnd h
    | exact .bind fun _ => All.mono (visitFe_neutral _ _ _) fun _ h => neutral_notEnd h
    | exact .bind fun _ => .fmap fun _ => neutral_notEnd rfl
    | exact .bind fun _ => .bind fun _ => .pure (neutral_notEnd rfl)
    | exact .bind fun _ => .bind fun _ => .fmap fun _ => neutral_notEnd rfl
    | exact .bind fun _ => .bind fun _ => .pure nofun
    | exact .bind fun _ => .fmap fun _ => notEnd_opens _ _

theorem visitCode_notEnd (k : FrameKind) (pos code : Nat) (hc : code ≠ 0x0B) :
    All NotEnd (visitCode f k pos code) := by
  unfold visitCode
  split
  case h_3 => exact .fmap fun _ => notEnd_opens _ _
  case h_4 => exact .fmap fun _ => notEnd_opens _ _
  case h_5 => exact .fmap fun _ => notEnd_opens _ _
  case h_6 => exact .bind fun _ => .pure nofun
  case h_7 => exact .bind fun _ => .fmap fun _ => notEnd_opens _ _
  case h_8 => exact .bind fun _ => .bind fun _ => .fmap fun _ => nofun
  case h_12 => exact absurd rfl hc
  case h_18 => exact .bind fun _ => .bind fun _ => .pure (neutral_notEnd rfl)
  case h_23 => exact .bind fun _ => .fmap fun _ => nofun
  case h_24 => exact .bind fun _ => .bind fun _ => .pure nofun
  case h_27 => exact All.mono neutral_select fun _ h => neutral_notEnd h
  all_goals first
    | exact All.mono (P := Neutral) (.pure rfl) fun _ h => neutral_notEnd h
    | exact All.mono (P := Neutral) (.fmap fun _ => rfl) fun _ h => neutral_notEnd h
    | exact All.mono (neutral_read2 fun _ _ => rfl) fun _ h => neutral_notEnd h
    | exact visitCode0_notEnd k pos _

/-- `end` is the byte 0x0B. -/
theorem visitOperator_end {frame : Option FrameKind} {r r' : Reader}
    (h : visitOperator f frame r = .ok (.end_, r')) :
    r' = r.advance 1 ∧ ∃ t, r.rest = 0x0B :: t := by
  cases frame with
  | none => cases h
  | some k =>
    have h : (do let pos ← readPos; let code ← readU8; visitCode f k pos code.toNat : R Operator) r =
      .ok (.end_, r') := h
    obtain ⟨pos, r1, e1, h⟩ := bind_ok.mp h
    cases e1
    obtain ⟨code, r2, e2, h⟩ := bind_ok.mp h
    by_cases hc : code.toNat = 0x0B
    · have h3 := (readU8_ok e2).1
      rw [hc] at h
      cases h
      refine ⟨h3, r'.rest, ?_⟩
      rw [(readU8_ok e2).2]
      congr 1
      exact UInt8.toNat_inj.1 hc
    · exact absurd rfl (visitCode_notEnd k _ _ hc _ _ _ h)

end Verif.Instr
