import Verif.Framing.Lemmas
/-! Driving the parser over an assembled module. -/
namespace Verif.Framing
open Verif.Leb Verif.Reader Verif.Parser

def afterCounts (c : Counts) (s : Sect) : Counts :=
  { c with
    functionEntries := (s.countFor 3).or c.functionEntries
    codeEntries := (s.countFor 10).or c.codeEntries
    dataEntries := (s.countFor 11).or c.dataEntries
    dataCount := (s.countFor 12).or c.dataCount }

/-- The parser after the sections so far is ready for the next one. -/
structure Ready (p : Parser) : Prop where
  state : p.state = .sectionStart ∨ p.state = .functionBody 0 0
  enc : p.encoding = .module
  max : p.maxOffset = none

/-- The parser after a section. -/
structure After (p : Parser) (s : Sect) (p' : Parser) : Prop where
  ready : Ready p'
  offset : p'.offset = p.offset + (sectBytes s).length
  counts : p'.counts = afterCounts p.counts s
  order : (s.known? = none ∧ p'.order = p.order) ∨
    ∃ id, s.known? = some id ∧ orderOf id = some p'.order.1

theorem headerLen_length (s : Sect) :
    (sectBytes s).length = headerLen (content s).length + (content s).length := by
  simp [sectBytes, headerLen]; omega

/-- Header of the section `s` at offset `a`. -/
def hdr (a : Nat) (s : Sect) : Header :=
  { id := s.id, lenPos := a + 1, len := BitVec.ofNat 32 (content s).length,
    start := a + headerLen (content s).length,
    stop := a + headerLen (content s).length + (content s).length }

theorem id_lt {s : Sect} (hok : s.Ok) : s.id < 128 := by
  cases s with
  | items id c b =>
    simp only [Sect.Ok, List.mem_cons, List.not_mem_nil, or_false] at hok
    simp only [Sect.id]
    rcases hok with rfl | rfl | rfl | rfl | rfl | rfl | rfl | rfl | rfl | rfl <;> decide
  | raw id b => exact hok.2
  | _ => simp only [Sect.id]; decide

/-- Opening a section. -/
theorem parse_open {p : Parser} (hp : Ready p) {s : Sect} (he : Enc s) (hok : s.Ok)
    {tail : List UInt8} (hs : p.offset + (sectBytes s ++ tail).length ≤ u64Max) :
    parse p (sectBytes s ++ tail) true =
      finish (parseSection { p with state := .sectionStart } (hdr p.offset s)
        ((Reader.new (sectBytes s ++ tail) p.offset).advance (headerLen (content s).length)))
        true := by
  rw [parse_short (by
    unfold Parser.maxLen; rw [hp.max]; simp only [Option.getD_none]; omega)]
  congr 1
  have h1 : parseReader p (Reader.new (sectBytes s ++ tail) p.offset) true =
      parseSectionStart { p with state := .sectionStart }
        (Reader.new (sectBytes s ++ tail) p.offset) true := by
    rcases hp.state with h | h
    · simp only [parseReader, h]; congr 1; cases p; simp_all
    · simp only [parseReader, h, if_true]
  rw [h1]
  unfold parseSectionStart
  have hne : (Reader.new (sectBytes s ++ tail) p.offset).bytesRemaining ≠ 0 := by
    simp [Reader.bytesRemaining, Reader.new, Reader.maxPosition, sectBytes]
  rw [if_neg (by simp [hne]), if_neg (not_magic he hok tail _)]
  simp only [hp.max]
  rw [List.length_append, headerLen_length] at hs
  rw [readSectionHeader_enc (id := s.id) (L := (content s).length) (tail := content s ++ tail)
    (id_lt hok) he.len (by simp [Reader.rest, Reader.new, sectBytes])
    (by simp [Reader.originalPosition, Reader.new]; omega)]
  simp [hdr, Reader.originalPosition, Reader.new]

theorem rest_open (s : Sect) (tail : List UInt8) (off : Nat) :
    ((Reader.new (sectBytes s ++ tail) off).advance (headerLen (content s).length)).rest =
      content s ++ tail := by
  rw [Reader.rest_advance]
  have : (Reader.new (sectBytes s ++ tail) off).rest =
      (s.id :: encodeU (content s).length) ++ (content s ++ tail) := by
    simp [Reader.rest, Reader.new, sectBytes]
  rw [this]
  have e : headerLen (content s).length = (s.id :: encodeU (content s).length).length := by
    simp [headerLen]; omega
  rw [e, List.drop_left]

theorem pos_open (b : List UInt8) (n off : Nat) :
    ((Reader.new b off).advance n).originalPosition = off + n := by
  simp [Reader.new, Reader.originalPosition]

theorem len_toNat {s : Sect} (he : Enc s) (a : Nat) :
    (hdr a s).len.toNat = (content s).length := by
  simp only [hdr, BitVec.toNat_ofNat]
  exact Nat.mod_eq_of_lt he.len

/-- One step of the driver. -/
theorem drive_step {p p' : Parser} {b : List UInt8} {n : Nat} {pl : Payload} {tail : List UInt8}
    {tr : List Event} (hn : n = b.length)
    (h : parse p (b ++ tail) true = (.ok (.parsed n pl), p'))
    (hne : ¬ IsNested pl) (hne' : ¬ IsEnd pl)
    (hd : Drive p' [] tail [] tr none) :
    Drive p [] (b ++ tail) [] (⟨n, pl⟩ :: tr) none := by
  refine .step (p' := p') (q := p') (st' := []) (by simpa using h) ?_ ?_
  · cases pl with
    | nested b q rg => exact absurd ⟨_, _, _, rfl⟩ hne
    | endOf o => exact absurd ⟨_, rfl⟩ hne'
    | _ => rfl
  · rw [hn, List.drop_left]; exact hd

theorem finish_parsed_eq {x : Except Err (Payload × Reader) × Parser} {pl : Payload} {r' : Reader}
    {p' : Parser} (h : x = (.ok (pl, r'), p')) (e : Bool) :
    finish x e = (.ok (.parsed r'.position pl), { p' with offset := p'.offset + r'.position }) := by
  subst h; rfl

theorem runBody_of {p : Parser} {body : R α} {fin : α → Nat → Except Err Payload × Parser}
    {r r' : Reader} {a : α} {pl : Payload} {p' : Parser} (h1 : body r = .ok (a, r'))
    (h2 : fin a r'.originalPosition = (.ok pl, p')) :
    runBody p body fin r = (.ok (pl, r'), p') := by
  unfold runBody; rw [h1]; simp only [h2]

theorem updateOrder_of {p : Parser} {o : Order} {n : Nat} (h : p.order.1.rank < o.rank) :
    updateOrder p o n = .ok { p with order := (o, n) } := by
  unfold updateOrder
  rw [if_neg (by omega)]

theorem pos_after (s : Sect) (tail : List UInt8) (off : Nat) :
    (((Reader.new (sectBytes s ++ tail) off).advance (headerLen (content s).length)).advance
      (content s).length).position = (sectBytes s).length := by
  rw [headerLen_length]; simp [Reader.new]

/-- Sections whose contents are a count and items. -/
theorem drive_items {p : Parser} (hp : Ready p) {id : UInt8} {count : BitVec 32}
    {bytes : List UInt8} (he : Enc (.items id count bytes)) (hok : (Sect.items id count bytes).Ok)
    {o : Order} (ho : orderOf id = some o) (hlt : p.order.1.rank < o.rank)
    (hd : id = 11 → ∀ n, checkDataCount (afterCounts p.counts (.items id count bytes)) n = .ok ()) :
    ∃ p', After p (.items id count bytes) p' ∧
      ∀ tail tr, p.offset + (sectBytes (.items id count bytes) ++ tail).length ≤ u64Max →
        Drive p' [] tail [] tr none →
        Drive p [] (sectBytes (.items id count bytes) ++ tail) []
          (sectEvents p.offset (.items id count bytes) ++ tr) none := by
  have hs : Sect.id (.items id count bytes) = id := rfl
  generalize hS : Sect.items id count bytes = S at *
  have hid0 : id ≠ 0 := (orderOf_spec ho).2.2
  refine ⟨{ p with state := .sectionStart, offset := p.offset + (sectBytes S).length, counts := afterCounts p.counts S, order := (o, p.offset + headerLen (content S).length) }, ⟨⟨.inl rfl, hp.enc, hp.max⟩, rfl, rfl, .inr ⟨id, ?_, ho⟩⟩, fun tail tr hsz hdrive => ?_⟩
  · rw [← hS]; rfl
  · have hrest := rest_open S tail p.offset
    have hpos := pos_open (sectBytes S ++ tail) (headerLen (content S).length) p.offset
    have hpa := pos_after S tail p.offset
    generalize hR : (Reader.new (sectBytes S ++ tail) p.offset).advance
      (headerLen (content S).length) = R at *
    have hC : content S = encodeU32 count ++ bytes := by rw [← hS]; rfl
    have hlim : limitedNew ⟨content S, 0, R.originalPosition⟩ =
        .ok (count, ⟨content S, (encodeU32 count).length, R.originalPosition⟩) := by
      have := Dec.u32 count ⟨content S, 0, R.originalPosition⟩ bytes (by rw [← hC]; rfl)
      unfold limitedNew
      simpa [Reader.advance] using this
    have hsec := sectionOf_enc (ctor := limitedNew) hrest hlim
    have hev : sectEvents p.offset S = [⟨(sectBytes S).length,
        .limited id count ⟨content S, (encodeU32 count).length, R.originalPosition⟩⟩] := by
      rw [hpos, headerLen_length, hC, ← hS]
      rfl
    rw [hev]
    refine drive_step rfl ?_ (by rintro ⟨_, _, _, ⟨⟩⟩) (by rintro ⟨_, ⟨⟩⟩) hdrive
    rw [parse_open hp he hok hsz, hR]
    have hmain : parseSection { p with state := .sectionStart } (hdr p.offset S) R =
        (.ok (.limited id count ⟨content S, (encodeU32 count).length, R.originalPosition⟩,
          R.advance (content S).length),
         { p with state := .sectionStart, counts := afterCounts p.counts S, order := (o, p.offset + headerLen (content S).length) }) := by
      unfold parseSection
      have hi : (hdr p.offset S).id = id := hs
      rw [if_neg (by rw [hi]; exact hid0)]
      simp only [hp.enc, hi, ho]
      rw [updateOrder_of (by exact hlt)]
      simp only
      unfold moduleBody
      rw [len_toNat he, hi]
      have hno : id ≠ 8 ∧ id ≠ 10 ∧ id ≠ 12 := by
        rw [← hS] at hok
        simp only [Sect.Ok, List.mem_cons, List.not_mem_nil, or_false] at hok
        rcases hok with rfl | rfl | rfl | rfl | rfl | rfl | rfl | rfl | rfl | rfl <;> decide
      by_cases h3 : id = 3
      · rw [if_pos h3]
        refine runBody_of hsec ?_
        simp only [Prod.mk.injEq, true_and]
        congr 1
        rw [← hS]
        simp [afterCounts, Sect.countFor, h3]
      · rw [if_neg h3, if_neg hno.1, if_neg hno.2.1]
        by_cases h11 : id = 11
        · rw [if_pos h11]
          refine runBody_of hsec ?_
          have hcc : { p.counts with dataEntries := some count.toNat } = afterCounts p.counts S := by
            rw [← hS]
            simp [afterCounts, Sect.countFor, h11]
          simp only [hcc]
          rw [hd h11]
          rfl
        · rw [if_neg h11, if_neg hno.2.2]
          refine runBody_of hsec ?_
          have hcc : p.counts = afterCounts p.counts S := by
            rw [← hS]
            simp [afterCounts, Sect.countFor, h3, h11, hno.2.1, hno.2.2]
          rw [← hcc]
          rfl
    rw [finish_parsed_eq hmain, hpa]

/-- The start and data count sections. -/
theorem drive_single {p : Parser} (hp : Ready p) {v : BitVec 32} {S : Sect}
    (hSS : S = .start v ∨ S = .dataCount v) (he : Enc S)
    {o : Order} (ho : orderOf S.id = some o) (hlt : p.order.1.rank < o.rank) :
    ∃ p', After p S p' ∧
      ∀ tail tr, p.offset + (sectBytes S ++ tail).length ≤ u64Max →
        Drive p' [] tail [] tr none →
        Drive p [] (sectBytes S ++ tail) [] (sectEvents p.offset S ++ tr) none := by
  have hid0 : S.id ≠ 0 := (orderOf_spec ho).2.2
  have hok : S.Ok := by rcases hSS with rfl | rfl <;> trivial
  refine ⟨{ p with state := .sectionStart, offset := p.offset + (sectBytes S).length, counts := afterCounts p.counts S, order := (o, p.offset + headerLen (content S).length) }, ⟨⟨.inl rfl, hp.enc, hp.max⟩, rfl, rfl, .inr ⟨S.id, ?_, ho⟩⟩, fun tail tr hsz hdrive => ?_⟩
  · rcases hSS with rfl | rfl <;> rfl
  · have hrest := rest_open S tail p.offset
    have hpos := pos_open (sectBytes S ++ tail) (headerLen (content S).length) p.offset
    have hpa := pos_after S tail p.offset
    generalize hR : (Reader.new (sectBytes S ++ tail) p.offset).advance
      (headerLen (content S).length) = R at *
    have hC : content S = encodeU32 v := by rcases hSS with rfl | rfl <;> rfl
    have hsec := fun desc => singleItem_enc (desc := desc) (stop := (hdr p.offset S).stop)
      (hC ▸ Dec.u32 v) he.len hrest (by rw [hpos]; rfl)
    obtain ⟨pl, hpl, hev⟩ : ∃ pl, (pl = (if S.id = 8 then
        Payload.start v (R.originalPosition, (hdr p.offset S).stop) else
        Payload.dataCount v (R.originalPosition, (hdr p.offset S).stop))) ∧
        sectEvents p.offset S = [⟨(sectBytes S).length, pl⟩] := by
      refine ⟨_, rfl, ?_⟩
      rw [hpos, headerLen_length, hC]
      unfold hdr
      rw [hC]
      rcases hSS with rfl | rfl <;> rfl
    rw [hev]
    refine drive_step rfl ?_ (by rw [hpl]; rintro ⟨_, _, _, h⟩; split at h <;> cases h)
      (by rw [hpl]; rintro ⟨_, h⟩; split at h <;> cases h) hdrive
    rw [parse_open hp he hok hsz, hR]
    have hmain : parseSection { p with state := .sectionStart } (hdr p.offset S) R =
        (.ok (pl, R.advance (content S).length),
         { p with state := .sectionStart, counts := afterCounts p.counts S, order := (o, p.offset + headerLen (content S).length) }) := by
      unfold parseSection
      have hi : (hdr p.offset S).id = S.id := rfl
      rw [if_neg (by rw [hi]; exact hid0)]
      simp only [hp.enc, hi, ho]
      rw [updateOrder_of (by exact hlt)]
      simp only
      unfold moduleBody
      rw [hi, hpl]
      rcases hSS with rfl | rfl
      · have h1 : ((Sect.start v).id) = 8 := rfl
        rw [h1, if_neg (by decide), if_pos rfl]
        refine runBody_of (hsec _) ?_
        rfl
      · have h1 : ((Sect.dataCount v).id) = 12 := rfl
        rw [h1, if_neg (by decide), if_neg (by decide), if_neg (by decide), if_neg (by decide),
          if_pos rfl]
        refine runBody_of (hsec _) ?_
        rfl
    rw [finish_parsed_eq hmain, hpa]

/-- Custom and unknown sections. -/
theorem drive_other {p : Parser} (hp : Ready p) {S : Sect} (hk : S.known? = none) (he : Enc S)
    (hok : S.Ok) :
    ∃ p', After p S p' ∧
      ∀ tail tr, p.offset + (sectBytes S ++ tail).length ≤ u64Max →
        Drive p' [] tail [] tr none →
        Drive p [] (sectBytes S ++ tail) [] (sectEvents p.offset S ++ tr) none := by
  have hcc : p.counts = afterCounts p.counts S := by
    cases S <;> simp [Sect.known?] at hk <;> rfl
  refine ⟨{ p with state := .sectionStart, offset := p.offset + (sectBytes S).length }, ⟨⟨.inl rfl, hp.enc, hp.max⟩, rfl, hcc, .inl ⟨hk, rfl⟩⟩, fun tail tr hsz hdrive => ?_⟩
  have hrest := rest_open S tail p.offset
  have hpos := pos_open (sectBytes S ++ tail) (headerLen (content S).length) p.offset
  have hpa := pos_after S tail p.offset
  generalize hR : (Reader.new (sectBytes S ++ tail) p.offset).advance
    (headerLen (content S).length) = R at *
  suffices hmain : ∃ pl, sectEvents p.offset S = [⟨(sectBytes S).length, pl⟩] ∧
      ¬ IsNested pl ∧ ¬ IsEnd pl ∧
      parseSection { p with state := .sectionStart } (hdr p.offset S) R =
        (.ok (pl, R.advance (content S).length), { p with state := .sectionStart }) by
    obtain ⟨pl, hev, n1, n2, hmain⟩ := hmain
    rw [hev]
    refine drive_step rfl ?_ n1 n2 hdrive
    rw [parse_open hp he hok hsz, hR, finish_parsed_eq hmain, hpa]
  cases S with
  | custom name data =>
    refine ⟨.custom name ⟨content (.custom name data), (encodeU name.length).length + name.length,
        R.originalPosition⟩, ?_, ?_, ?_, ?_⟩
    · rw [hpos, headerLen_length]; rfl
    · rintro ⟨_, _, _, ⟨⟩⟩
    · rintro ⟨_, ⟨⟩⟩
    · unfold parseSection
      rw [if_pos (show (hdr p.offset (.custom name data)).id = 0 from rfl), len_toNat he]
      have hname : name.length < 2 ^ 32 := by have := hok.1; omega
      have hctor : customNew ⟨content (.custom name data), 0, R.originalPosition⟩ =
          .ok (name, ⟨content (.custom name data), (encodeU name.length).length + name.length,
            R.originalPosition⟩) := by
        have hdec : Dec readString (encodeU name.length ++ name) name := by
          unfold readString
          have h1 := Dec.u32 (BitVec.ofNat 32 name.length)
          rw [encodeU32_ofNat hname] at h1
          have e3 : (BitVec.ofNat 32 name.length).toNat = name.length := by
            rw [BitVec.toNat_ofNat, Nat.mod_eq_of_lt hname]
          refine h1.bind ?_
          rw [e3]
          refine .ite_neg (by have := hok.1; simp [maxWasmStringSize]; omega) ?_
          exact (Dec.readBytes name).bind_nil (.ite_pos hok.2 (.pure _))
        have := hdec ⟨content (.custom name data), 0, R.originalPosition⟩ data
          (by simp [content, Reader.rest])
        simpa [customNew, Reader.advance] using this
      exact runBody_of (sectionOf_enc hrest hctor) rfl
  | raw id data =>
    refine ⟨.unknown id data (R.originalPosition, R.originalPosition + data.length),
      ?_, ?_, ?_, ?_⟩
    · rw [hpos, headerLen_length]; rfl
    · rintro ⟨_, _, _, ⟨⟩⟩
    · rintro ⟨_, ⟨⟩⟩
    · unfold parseSection
      have hid : (hdr p.offset (.raw id data)).id = id := rfl
      have hge : 14 ≤ id := hok.1
      have hne : ∀ x : UInt8, x < 14 → id ≠ x := by
        rintro x hx rfl
        have h1 : id.toNat < 14 := hx
        have h2 : 14 ≤ id.toNat := hge
        omega
      rw [if_neg (by rw [hid]; exact hne 0 (by decide))]
      have ho : orderOf id = none := by
        unfold orderOf
        rw [if_neg (hne 1 (by decide)), if_neg (hne 2 (by decide)), if_neg (hne 3 (by decide)),
          if_neg (hne 4 (by decide)), if_neg (hne 5 (by decide)), if_neg (hne 6 (by decide)),
          if_neg (hne 7 (by decide)), if_neg (hne 8 (by decide)), if_neg (hne 9 (by decide)),
          if_neg (hne 10 (by decide)), if_neg (hne 11 (by decide)), if_neg (hne 12 (by decide)),
          if_neg (hne 13 (by decide))]
      simp only [hp.enc, hid, ho]
      unfold unknownBody
      rw [len_toNat he]
      refine runBody_of (a := (R.originalPosition, data)) ?_ ?_
      · have := Dec.readBytes data R tail hrest
        simp only [bind_apply, readPos]
        rw [show content (.raw id data) = data from rfl, this]
        rfl
      · simp only [hid]
        have : (hdr p.offset (.raw id data)).stop = R.originalPosition + data.length := by
          rw [hpos]; rfl
        rw [this]
  | _ => simp [Sect.known?] at hk

/-- The bodies of a code section. -/
theorem drive_code_bodies (bodies : List (List UInt8)) (p : Parser) (hm : p.maxOffset = none)
    (hst : p.state = .functionBody bodies.length (bodiesLen bodies))
    (hb : ∀ b ∈ bodies, b.length < 2 ^ 32) (tail : List UInt8) (tr : List Event)
    (hs : p.offset + (bodies.flatMap bodyBytes ++ tail).length ≤ u64Max)
    (hd : Drive { p with state := .functionBody 0 0, offset := p.offset + bodiesLen bodies } [] tail
      [] tr none) :
    Drive p [] (bodies.flatMap bodyBytes ++ tail) [] (bodyEvents p.offset bodies ++ tr) none := by
  induction bodies generalizing p with
  | nil =>
    have : { p with state := .functionBody 0 0, offset := p.offset + bodiesLen [] } = p := by
      cases p; simp_all [bodiesLen]
    rw [this] at hd
    exact hd
  | cons b bs ih =>
    have hlen : bodiesLen (b :: bs) = (bodyBytes b).length + bodiesLen bs := by
      simp [bodiesLen, bodyBytes]
    have hbl := hb b (List.mem_cons_self ..)
    rw [List.flatMap_cons, List.append_assoc] at hs ⊢
    have hR : (Reader.new (bodyBytes b ++ (bs.flatMap bodyBytes ++ tail)) p.offset).rest =
        bodyBytes b ++ (bs.flatMap bodyBytes ++ tail) := rfl
    have hp' : parse p (bodyBytes b ++ (bs.flatMap bodyBytes ++ tail)) true =
        (.ok (.parsed (bodyBytes b).length
          (.codeEntry ⟨b, 0, p.offset + (encodeU b.length).length⟩)),
         { p with state := .functionBody bs.length (bodiesLen bs), offset := p.offset + (bodyBytes b).length }) := by
      rw [parse_short (by
        unfold Parser.maxLen; rw [hm]; simp only [Option.getD_none]; omega)]
      unfold parseReader
      rw [hst]
      simp only [List.length_cons, Nat.add_eq_zero_iff, Nat.one_ne_zero, and_false, if_false]
      unfold parseFunctionBody
      have hdl : delimited (bodiesLen (b :: bs)) readReader
          (Reader.new (bodyBytes b ++ (bs.flatMap bodyBytes ++ tail)) p.offset) =
          .ok ((⟨b, 0, p.offset + (encodeU b.length).length⟩, bodiesLen bs),
            (Reader.new (bodyBytes b ++ (bs.flatMap bodyBytes ++ tail)) p.offset).advance
              (bodyBytes b).length) := by
        have h1 := dec_readReader hbl hR
        unfold delimited
        simp only [bind_apply, readPos, h1, Reader.originalPosition_advance,
          Nat.add_sub_cancel_left]
        rw [if_pos (by rw [hlen]; omega), hlen, Nat.add_sub_cancel_left]
        simp [pure_apply, Reader.new, Reader.originalPosition]
      rw [finish_parsed_eq (runBody_of hdl rfl)]
      simp [Reader.new]
    have hev : bodyEvents p.offset (b :: bs) = ⟨(bodyBytes b).length,
        .codeEntry ⟨b, 0, p.offset + (encodeU b.length).length⟩⟩ ::
        bodyEvents (p.offset + (bodyBytes b).length) bs := by
      simp [bodyEvents, bodyEvent, bodyBytes]
    rw [hev, List.cons_append]
    refine drive_step rfl hp' (by rintro ⟨_, _, _, ⟨⟩⟩) (by rintro ⟨_, ⟨⟩⟩) ?_
    refine ih _ hm rfl (fun x hx => hb x (List.mem_cons_of_mem _ hx)) ?_ ?_
    · simp only [List.length_append] at hs ⊢; omega
    · simp only
      rw [hlen, ← Nat.add_assoc] at hd
      exact hd

theorem drive_code {p : Parser} (hp : Ready p) {bodies : List (List UInt8)}
    (he : Enc (.code bodies)) (hlt : p.order.1.rank < Order.code.rank)
    (hc : ∀ n, checkFunctionCodeCounts (afterCounts p.counts (.code bodies)) n = .ok ()) :
    ∃ p', After p (.code bodies) p' ∧
      ∀ tail tr, p.offset + (sectBytes (.code bodies) ++ tail).length ≤ u64Max →
        Drive p' [] tail [] tr none →
        Drive p [] (sectBytes (.code bodies) ++ tail) []
          (sectEvents p.offset (.code bodies) ++ tr) none := by
  obtain ⟨hcl, hbl⟩ := he.code bodies rfl
  generalize hS : Sect.code bodies = S at *
  have hok : S.Ok := by rw [← hS]; trivial
  have hi : S.id = 10 := by rw [← hS]; rfl
  refine ⟨{ p with state := .functionBody 0 0, offset := p.offset + (sectBytes S).length, counts := afterCounts p.counts S, order := (.code, p.offset + headerLen (content S).length) }, ⟨⟨.inr rfl, hp.enc, hp.max⟩, rfl, rfl, .inr ⟨10, ?_, rfl⟩⟩, fun tail tr hsz hdrive => ?_⟩
  · rw [← hS]; rfl
  · have hrest := rest_open S tail p.offset
    have hpos := pos_open (sectBytes S ++ tail) (headerLen (content S).length) p.offset
    have hposn : ((Reader.new (sectBytes S ++ tail) p.offset).advance
      (headerLen (content S).length)).position = headerLen (content S).length := by
      simp [Reader.new]
    generalize hcount : BitVec.ofNat 32 bodies.length = count
    have hC : content S = encodeU32 count ++ bodies.flatMap bodyBytes := by
      rw [← hS, ← hcount]; rfl
    have hCl : (content S).length = (encodeU32 count).length + bodiesLen bodies := by
      rw [hC, List.length_append, flatMap_bodyBytes_length]
    have hcn : count.toNat = bodies.length := by
      rw [← hcount, BitVec.toNat_ofNat, Nat.mod_eq_of_lt hcl]
    generalize hR : (Reader.new (sectBytes S ++ tail) p.offset).advance
      (headerLen (content S).length) = R at *
    have hpar := parse_open hp he hok hsz
    rw [hR] at hpar
    have hdl : delimited (content S).length readVarU32 R =
        .ok ((count, bodiesLen bodies), R.advance (encodeU32 count).length) := by
      have := delimited_enc (len := (content S).length) (Dec.u32 count) (by omega)
        (r := R) (tail := bodies.flatMap bodyBytes ++ tail)
        (by rw [hrest, hC, List.append_assoc])
      rw [this, hCl, Nat.add_sub_cancel_left]
    have hmain : parseSection { p with state := .sectionStart } (hdr p.offset S) R =
        (.ok (.codeStart count ((hdr p.offset S).start, (hdr p.offset S).stop) (bodiesLen bodies),
          R.advance (encodeU32 count).length),
         { p with state := .functionBody bodies.length (bodiesLen bodies), counts := afterCounts p.counts S, order := (.code, p.offset + headerLen (content S).length) }) := by
      unfold parseSection
      have hi' : (hdr p.offset S).id = 10 := hi
      rw [if_neg (by rw [hi']; decide)]
      have ho : orderOf 10 = some .code := rfl
      simp only [hp.enc, hi', ho]
      rw [updateOrder_of (by exact hlt)]
      simp only
      unfold moduleBody
      rw [hi', if_neg (by decide), if_neg (by decide), if_pos rfl, len_toNat he]
      refine runBody_of hdl ?_
      have hcc : { p.counts with codeEntries := some count.toNat } = afterCounts p.counts S := by
        rw [← hS, hcn]
        simp [afterCounts, Sect.countFor]
      simp only [hcc, hc]
      rw [hcn]
      rfl
    rw [finish_parsed_eq hmain] at hpar
    have hev : sectEvents p.offset S = ⟨headerLen (content S).length + (encodeU32 count).length,
        .codeStart count ((hdr p.offset S).start, (hdr p.offset S).stop) (bodiesLen bodies)⟩ ::
        bodyEvents (p.offset + headerLen (content S).length + (encodeU32 count).length)
          bodies := by
      unfold hdr
      rw [hCl, ← hS, ← hcount]
      simp only [sectEvents, Nat.add_assoc]
    have hsplit : sectBytes S ++ tail =
        (S.id :: encodeU (content S).length ++ encodeU32 count) ++
          (bodies.flatMap bodyBytes ++ tail) := by
      unfold sectBytes
      rw [hC]; simp
    rw [hev, List.cons_append, hsplit]
    rw [hsplit] at hpar hsz
    refine drive_step (p' := { p with state := .functionBody bodies.length (bodiesLen bodies), offset := p.offset + (headerLen (content S).length + (encodeU32 count).length), counts := afterCounts p.counts S, order := (.code, p.offset + headerLen (content S).length) }) ?_ ?_ (by rintro ⟨_, _, _, ⟨⟩⟩) (by rintro ⟨_, ⟨⟩⟩) ?_
    · simp [headerLen]; omega
    · rw [hpar]
      simp only [Reader.position_advance, hposn]
    · rw [Nat.add_assoc p.offset]
      refine drive_code_bodies bodies { p with state := .functionBody bodies.length (bodiesLen bodies), offset := p.offset + (headerLen (content S).length + (encodeU32 count).length), counts := afterCounts p.counts S, order := (.code, p.offset + headerLen (content S).length) } hp.max rfl hbl tail tr ?_ ?_
      · simp only [List.length_append, List.length_cons, headerLen] at hsz ⊢
        omega
      · have : p.offset + (headerLen (content S).length + (encodeU32 count).length) +
            bodiesLen bodies = p.offset + (sectBytes S).length := by
          rw [headerLen_length, hCl]; omega
        simp only [this]
        exact hdrive

/-! ## All sections -/

def cnts (id : UInt8) (ss : List Sect) : List Nat := ss.filterMap (Sect.countFor id)

theorem cnts_cons (id : UInt8) (s : Sect) (ss : List Sect) :
    cnts id (s :: ss) = (s.countFor id).toList ++ cnts id ss := by
  unfold cnts
  cases h : s.countFor id <;> simp [h]

theorem countFor_known {id : UInt8} {s : Sect} {n : Nat} (h : s.countFor id = some n) :
    s.known? = some id := by
  cases s <;> simp_all [Sect.countFor, Sect.known?, Sect.id]

/-- Sections that can no longer come. -/
theorem cnts_nil {id : UInt8} {ss : List Sect} {k : Nat}
    (h : (ss.filterMap Sect.known?).Sublist (moduleOrder.drop k)) (hid : id ∉ moduleOrder.drop k) :
    cnts id ss = [] := by
  rw [cnts, List.filterMap_eq_nil_iff]
  intro s hs
  cases hc : s.countFor id with
  | none => rfl
  | some n =>
    exact absurd (h.subset (List.mem_filterMap.mpr ⟨s, hs, countFor_known hc⟩)) hid

/-- The counts of the sections so far and of those to come are consistent. -/
structure Consistent (c : Counts) (ss : List Sect) : Prop where
  funcs : (over c.functionEntries (cnts 3 ss)).getD 0 = (over c.codeEntries (cnts 10 ss)).getD 0
  data : ∀ n, over c.dataCount (cnts 12 ss) = some n →
    (over c.dataEntries (cnts 11 ss)).getD 0 = n

theorem check1_of {c : Counts} (h : c.functionEntries.getD 0 = c.codeEntries.getD 0) (n : Nat) :
    checkFunctionCodeCounts c n = .ok () := by
  unfold checkFunctionCodeCounts
  split <;> simp_all

theorem check2_of {c : Counts} (h : ∀ k, c.dataCount = some k → c.dataEntries.getD 0 = k) (n : Nat) :
    checkDataCount c n = .ok () := by
  unfold checkDataCount
  split <;> simp_all

theorem Consistent.step {c : Counts} {s : Sect} {ss : List Sect} (h : Consistent c (s :: ss)) :
    Consistent (afterCounts c s) ss := by
  constructor
  · have := h.funcs
    simp only [cnts_cons] at this
    simp only [afterCounts, over_or]
    exact this
  · have := h.data
    simp only [cnts_cons] at this
    simp only [afterCounts, over_or]
    exact this

theorem over_nil (o : Option Nat) : over o [] = o := by simp [over]

theorem totalConsumed_bodies (a : Nat) (bodies : List (List UInt8)) :
    totalConsumed (bodyEvents a bodies) = bodiesLen bodies := by
  induction bodies generalizing a with
  | nil => rfl
  | cons b bs ih =>
    have := ih (a + (bodyEvent a b).consumed)
    simp only [totalConsumed, bodyEvents, List.map_cons, List.sum_cons, bodiesLen] at this ⊢
    rw [this]
    simp [bodyEvent]

theorem totalConsumed_sect {s : Sect} (a : Nat) :
    totalConsumed (sectEvents a s) = (sectBytes s).length := by
  rw [headerLen_length]
  cases s with
  | code bodies =>
    have := totalConsumed_bodies (a + headerLen ((encodeU32 (BitVec.ofNat 32 bodies.length)).length +
      bodiesLen bodies) + (encodeU32 (BitVec.ofNat 32 bodies.length)).length) bodies
    simp only [sectEvents, totalConsumed, List.map_cons, List.sum_cons, content] at this ⊢
    rw [this, List.length_append, flatMap_bodyBytes_length]
    omega
  | _ => simp [sectEvents, totalConsumed, content]

theorem drive_sects (ss : List Sect) (p : Parser) (hp : Ready p)
    (henc : ∀ s ∈ ss, Enc s) (hok : ∀ s ∈ ss, s.Ok)
    (hord : (ss.filterMap Sect.known?).Sublist (moduleOrder.drop p.order.1.rank))
    (hcons : Consistent p.counts ss)
    (hs : p.offset + (ss.flatMap sectBytes).length ≤ u64Max) :
    Drive p [] (ss.flatMap sectBytes) [] (sectsEvents p.offset ss) none := by
  induction ss generalizing p with
  | nil =>
    refine .done (p' := { p with state := .sectionStart }) ?_ rfl
    simp only [List.flatMap_nil, List.isEmpty_nil]
    rw [parse_short (by simp)]
    have h1 : parseReader p (Reader.new [] p.offset) true =
        parseSectionStart { p with state := .sectionStart } (Reader.new [] p.offset) true := by
      rcases hp.state with h | h
      · simp only [parseReader, h]; congr 1; cases p; simp_all
      · simp only [parseReader, h, if_true]
    rw [h1]
    have c1 := check1_of (c := p.counts) (by simpa [cnts, over_nil] using hcons.funcs)
    have c2 := check2_of (c := p.counts) (by simpa [cnts, over_nil] using hcons.data)
    have h2 : parseSectionStart { p with state := .sectionStart } (Reader.new [] p.offset) true =
        (.ok (.endOf p.offset, Reader.new [] p.offset), { p with state := .sectionStart }) := by
      unfold parseSectionStart
      rw [if_pos ⟨rfl, rfl⟩]
      simp only [c1, c2]
      rfl
    rw [finish_parsed_eq h2]
    rfl
  | cons s ss ih =>
    have e0 := henc s (List.mem_cons_self ..)
    have o0 := hok s (List.mem_cons_self ..)
    rw [List.flatMap_cons] at hs ⊢
    have hgo : ∃ p', After p s p' ∧ (ss.filterMap Sect.known?).Sublist
        (moduleOrder.drop p'.order.1.rank) ∧
        ∀ tail tr, p.offset + (sectBytes s ++ tail).length ≤ u64Max →
        Drive p' [] tail [] tr none →
        Drive p [] (sectBytes s ++ tail) [] (sectEvents p.offset s ++ tr) none := by
      cases hk : s.known? with
      | none =>
        obtain ⟨p', h1, h2⟩ := drive_other hp hk e0 o0
        refine ⟨p', h1, ?_, h2⟩
        rcases h1.order with ⟨_, h3⟩ | ⟨id, h3, _⟩
        · rw [h3]; simpa [hk] using hord
        · rw [hk] at h3; cases h3
      | some id =>
        rw [List.filterMap_cons_some hk] at hord
        have hmem : id ∈ moduleOrder := by
          have := hord.subset (List.mem_cons_self ..)
          exact List.mem_of_mem_drop this
        obtain ⟨o, ho⟩ : ∃ o, orderOf id = some o := by
          simp only [moduleOrder, List.mem_cons, List.not_mem_nil, or_false] at hmem
          rcases hmem with rfl | rfl | rfl | rfl | rfl | rfl | rfl | rfl | rfl | rfl | rfl | rfl |
            rfl <;> exact ⟨_, rfl⟩
        obtain ⟨s1, s2, s3⟩ := orderOf_spec ho
        obtain ⟨u1, u2⟩ := order_uncons s2 hord
        rw [Nat.sub_add_cancel s1] at u2
        have hlt : p.order.1.rank < o.rank := by omega
        have hstep := hcons.step
        have fin : ∀ p', After p s p' → (ss.filterMap Sect.known?).Sublist
            (moduleOrder.drop p'.order.1.rank) := by
          intro p' h1
          rcases h1.order with ⟨h3, _⟩ | ⟨id', h3, h4⟩
          · rw [hk] at h3; cases h3
          · rw [hk] at h3
            cases h3
            rw [ho] at h4
            cases h4
            exact u2
        cases s with
        | items id' c b =>
          cases hk
          obtain ⟨p', h1, h2⟩ := drive_items hp e0 o0 ho hlt (by
            rintro rfl n
            have : o = .data := by cases ho; rfl
            subst this
            have z1 := cnts_nil (id := 11) u2 (by decide)
            have z2 := cnts_nil (id := 12) u2 (by decide)
            have := hstep.data
            rw [z1, z2, over_nil, over_nil] at this
            exact check2_of this n)
          exact ⟨p', h1, fin p' h1, h2⟩
        | code bodies =>
          cases hk
          have : o = .code := by cases ho; rfl
          subst this
          obtain ⟨p', h1, h2⟩ := drive_code hp e0 hlt (by
            intro n
            have z1 := cnts_nil (id := 3) u2 (by decide)
            have z2 := cnts_nil (id := 10) u2 (by decide)
            have := hstep.funcs
            rw [z1, z2, over_nil, over_nil] at this
            exact check1_of this n)
          exact ⟨p', h1, fin p' h1, h2⟩
        | start f =>
          cases hk
          obtain ⟨p', h1, h2⟩ := drive_single hp (.inl rfl) e0 ho hlt
          exact ⟨p', h1, fin p' h1, h2⟩
        | dataCount c =>
          cases hk
          obtain ⟨p', h1, h2⟩ := drive_single hp (.inr rfl) e0 ho hlt
          exact ⟨p', h1, fin p' h1, h2⟩
        | custom n d => cases hk
        | raw i d => cases hk
    obtain ⟨p', h1, h2, h3⟩ := hgo
    have htc := totalConsumed_sect (s := s) p.offset
    simp only [sectsEvents, htc]
    refine h3 _ _ hs ?_
    rw [← h1.offset]
    refine ih p' h1.ready (fun x hx => henc x (List.mem_cons_of_mem _ hx))
      (fun x hx => hok x (List.mem_cons_of_mem _ hx)) h2 (by rw [h1.counts]; exact hcons.step) ?_
    rw [h1.offset]
    simp only [List.length_append] at hs
    omega

theorem cnts_len {ss : List Sect} (h : (ss.filterMap Sect.known?).Sublist moduleOrder)
    (id : UInt8) : (cnts id ss).length ≤ 1 := by
  have h1 : (cnts id ss).length ≤ (ss.filterMap Sect.known?).count id := by
    clear h
    induction ss with
    | nil => simp [cnts]
    | cons s ss ih =>
      have e : (s :: ss).filterMap Sect.known? = s.known?.toList ++ ss.filterMap Sect.known? := by
        cases h : s.known? <;> simp [h]
      rw [cnts_cons, e, List.length_append, List.count_append]
      cases h : s.countFor id with
      | none => simp; omega
      | some n => rw [countFor_known h]; simp; omega
  have h2 := h.count_le id
  have h3 : moduleOrder.count id ≤ 1 := by
    have : moduleOrder.Nodup := by decide
    exact List.nodup_iff_count.mp this id
  omega

theorem drive_module {ss : List Sect} (hw : WellFormed ss) (henc : ∀ s ∈ ss, Enc s) (off : Nat)
    (hs : off + (moduleHeader ++ ss.flatMap sectBytes).length ≤ u64Max) :
    DriveAll (Parser.new off) (moduleHeader ++ ss.flatMap sectBytes) (moduleEvents off ss)
      none := by
  have hhead : parse (Parser.new off) (moduleHeader ++ ss.flatMap sectBytes) true =
      (.ok (.parsed 8 (.version 1 .module (off, off + 8))),
        { Parser.new off with state := .sectionStart, offset := off + 8 }) := by
    rw [parse_short (by
      unfold Parser.maxLen; simp only [Parser.new, Option.getD_none]; omega)]
    generalize ss.flatMap sectBytes = t
    have hv : readHeaderVersion (Reader.new (moduleHeader ++ t) off) =
        .ok (1#32, (Reader.new (moduleHeader ++ t) off).advance 8) := by
      have h1 : Dec readHeaderVersion (wasmMagic ++ [1, 0, 0, 0]) 1#32 := by
        unfold readHeaderVersion
        refine (Dec.readBytes wasmMagic).bind ?_
        refine .ite_neg (by simp) ?_
        have : (1#32) = BitVec.ofNat 32 (leValue [1, 0, 0, 0]) := by decide
        rw [this]
        exact (Dec.readBytes [1, 0, 0, 0]).bind_nil (.pure _)
      exact h1 _ t rfl
    have h2 : parseReader (Parser.new off) (Reader.new (moduleHeader ++ t) off) true =
        (.ok (.version 1 .module (off, off + 8), (Reader.new (moduleHeader ++ t) off).advance 8),
          { Parser.new off with state := .sectionStart }) := by
      unfold parseReader
      simp only [Parser.new, parseHeader, hv]
      simp [Reader.new, Reader.originalPosition]
    have h3 : (Parser.new off).offset = off := rfl
    rw [h3, finish_parsed_eq h2]
    rfl
  refine drive_step rfl hhead (by rintro ⟨_, _, _, ⟨⟩⟩) (by rintro ⟨_, ⟨⟩⟩) ?_
  refine drive_sects ss _ ⟨.inl rfl, rfl, rfl⟩ henc hw.ok ?_ ?_ ?_
  · exact hw.order
  · have hl := fun id => over_sum (cnts_len hw.order id)
    constructor
    · simp only [Parser.new, hl]
      exact hw.funcs
    · intro n hn
      have h12 := hl 12
      simp only [Parser.new] at hn
      rw [hn] at h12
      simp only [Parser.new, hl]
      have : ∃ n, Sect.dataCount n ∈ ss := by
        simp only [over, Option.or_none] at hn
        have := List.mem_of_getLast? hn
        obtain ⟨s, h1, h2⟩ := List.mem_filterMap.mp this
        cases s with
        | dataCount c => exact ⟨c, h1⟩
        | items id c b =>
          simp only [Sect.countFor] at h2
          split at h2
          · rename_i hid
            subst hid
            have := hw.ok _ h1
            simp [Sect.Ok] at this
          · cases h2
        | _ => simp [Sect.countFor] at h2
      have := hw.data this
      simp only [countFor] at this
      simp only [cnts]
      rw [← this]
      simpa [cnts] using h12.symm
  · simp only [List.length_append, moduleHeader, List.length_cons, List.length_nil] at hs ⊢
    omega

end Verif.Framing
