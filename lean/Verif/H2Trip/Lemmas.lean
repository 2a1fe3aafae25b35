import Verif.H2Trip.Spec
import Verif.Trip.Lemmas
import Verif.Send.Props
import Verif.H2Frame.Props
import Verif.H2Request.Props
import Verif.H2Body.Props

/-! # Lemmas for round trips over HTTP/2 -/

namespace Fly.H2Trip
open Trip (App Each Chosen Unserved WrittenPath Outcome CfgOk coding coded)
open Req (Method queryText)
open Header (Pairs HList HField view Inv)
open Hpack (Rep rfcBlock rfcRep Entry)
open PyReq (PyRequest)
open PyBridge (Reads statuses contentTypes missing Cfg build)
open H2R (WellFormed PlainPath PlainQuery)
open Send (Sys)

/-! ## Writing -/

theorem frame_finishes (hdr payload : Bytes) : ∀ (ss : List Sys), (∀ s ∈ ss, ∃ j, s = .sent (j + 1)) →
    (∀ total, payload.length - total ≤ ss.length → (Send.frameRun hdr payload true total ss).2 = true) ∧
    (∀ total, total < hdr.length → hdr.length - total + payload.length ≤ ss.length → (Send.frameRun hdr payload false total ss).2 = true)
  | [], _ => by
    constructor
    · intro total h
      simp only [List.length_nil] at h
      simp only [Send.frameRun, Bool.true_and, decide_eq_true_eq]
      omega
    · intro total h1 h2
      simp only [List.length_nil] at h2
      omega
  | s :: ss, h => by
    obtain ⟨j, rfl⟩ := h s (by simp)
    have ih := frame_finishes hdr payload ss fun s hs => h s (by simp [hs])
    constructor
    · intro total ht
      unfold Send.frameRun
      split
      · rfl
      · next hc =>
        simp only [Bool.true_and, decide_eq_true_eq] at hc
        simp only [if_true]
        apply ih.1
        simp only [List.length_take, List.length_drop, List.length_cons] at ht ⊢
        omega
    · intro total h1 h2
      unfold Send.frameRun
      simp only [Bool.false_and, Bool.false_eq_true, if_false]
      simp only [List.length_cons] at h2
      split
      · apply ih.1; omega
      · next hc =>
        apply ih.2
        · simp only [List.length_take, List.length_drop] at hc ⊢; omega
        · simp only [List.length_take, List.length_drop] at hc ⊢; omega

theorem frame_written (hdr payload : Bytes) (hh : hdr ≠ []) (k : Nat) (ss : List Sys) (hs : ∀ s ∈ ss, ∃ j, s = .sent (j + 1))
    (hl : hdr.length + payload.length ≤ ss.length) :
    Send.frameRun hdr payload false 0 (List.replicate k .block ++ ss) = (hdr ++ payload, true) := by
  have h2 : (Send.frameRun hdr payload false 0 (List.replicate k .block ++ ss)).2 = true := by
    induction k with
    | zero =>
      have := (frame_finishes hdr payload ss hs).2 0 (List.length_pos_iff.2 hh) (by omega)
      simpa using this
    | succ k ih =>
      rw [List.replicate_succ, List.cons_append]
      unfold Send.frameRun
      simp only [Bool.false_and, Bool.false_eq_true, if_false]
      exact ih
  have h1 := (Send.C16_h2_frame_exactly_once_partial hdr payload hh k ss (fun s hx => by obtain ⟨j, rfl⟩ := hs s hx; simp)).1 h2
  exact Prod.ext h1 h2

theorem dataHeader_finishes (hdr : Bytes) : ∀ (ss : List Sys), (∀ s ∈ ss, ∃ j, s = .sent (j + 1)) →
    ∀ total, hdr.length - total ≤ ss.length → (Send.dataHeaderRun true hdr total ss).2 = true
  | [], _ => by
    intro total h
    simp only [List.length_nil] at h
    simp only [Send.dataHeaderRun, decide_eq_true_eq]
    omega
  | s :: ss, h => by
    obtain ⟨j, rfl⟩ := h s (by simp)
    have ih := dataHeader_finishes hdr ss fun s hs => h s (by simp [hs])
    intro total ht
    unfold Send.dataHeaderRun
    split
    · rfl
    · next hc =>
      simp only [if_true]
      apply ih
      simp only [List.length_take, List.length_drop, List.length_cons] at ht ⊢
      omega

theorem dataHeader_written (hdr : Bytes) (ss : List Sys) (hs : ∀ s ∈ ss, ∃ j, s = .sent (j + 1)) (hl : hdr.length ≤ ss.length) :
    Send.dataHeaderRun true hdr 0 ss = (hdr, true) := by
  have h2 := dataHeader_finishes hdr ss hs 0 (by omega)
  have h1 := (Send.C16_h2_data_header_tls_partial hdr ss (fun s hx => by obtain ⟨j, rfl⟩ := hs s hx; simp)).1 h2
  exact Prod.ext h1 h2

theorem payload_written (disk : Bytes) (p : H2B.Plan) (what : Bytes) (hr : H2B.Right true disk p what) (ss : List Sys) (hc : H2B.Calm ss)
    (ht : what.length ≤ H2B.takes ss) : (H2B.payload true disk p ss).out = what := by
  rcases hr.2.2 ss hc with ⟨_, h⟩ | ⟨_, _, h⟩
  · exact h
  · omega

/-! ## Reading -/

theorem sid_bytes (sid : Nat) (h : sid < 2147483648) :
    sid / 16777216 % 128 * 16777216 + sid / 65536 % 256 * 65536 + sid / 256 % 256 * 256 + sid % 256 = sid := by
  have h1 : sid / 16777216 % 128 = sid / 16777216 := by omega
  rw [h1]
  have h2 : sid / 65536 = sid / 16777216 * 256 + sid / 65536 % 256 := by omega
  have h3 : sid / 256 = sid / 65536 * 256 + sid / 256 % 256 := by omega
  have h4 : sid = sid / 256 * 256 + sid % 256 := by omega
  generalize sid / 16777216 = a at *
  generalize sid / 65536 % 256 = b at *
  generalize sid / 65536 = c at *
  generalize sid / 256 % 256 = d at *
  generalize sid / 256 = e at *
  generalize sid % 256 = f at *
  omega

theorem wireHeader_read (maxFrame len type flags sid : Nat) (payload rest : Bytes) (hl : payload.length = len) (hm : len ≤ maxFrame)
    (hs : sid < 2 ^ 31) :
    readFrame maxFrame (H2.wireHeader len type flags false sid ++ (payload ++ rest)) = some (⟨type, flags, sid, payload⟩, rest) := by
  unfold H2.wireHeader readFrame
  simp only [List.cons_append, List.nil_append, Bool.false_eq_true, if_false, Nat.zero_add]
  have e1 : len / 65536 * 65536 + len / 256 % 256 * 256 + len % 256 = len := by omega
  have e2 := sid_bytes sid hs
  rw [e1, e2, if_neg (by simp only [List.length_append]; omega), ← hl]
  simp

/-- Frames as they are on the wire. -/
def wires (sid : Nat) (fs : List (Nat × Nat × Bytes)) : Bytes :=
  fs.flatMap fun f => H2.wireHeader f.2.2.length f.1 f.2.1 false sid ++ f.2.2

theorem wires_read (maxFrame sid : Nat) (hs : sid < 2 ^ 31) : ∀ (fs : List (Nat × Nat × Bytes)), (∀ f ∈ fs, f.2.2.length ≤ maxFrame) →
    ∀ n, fs.length ≤ n → readFrames maxFrame n (wires sid fs) = some (fs.map fun f => ⟨f.1, f.2.1, sid, f.2.2⟩)
  | [], _, n, _ => by cases n <;> rfl
  | f :: fs, h, n, hn => by
    obtain ⟨n, rfl⟩ : ∃ k, n = k + 1 := ⟨n - 1, by simp at hn; omega⟩
    have hr := wireHeader_read maxFrame f.2.2.length f.1 f.2.1 sid f.2.2 (wires sid fs) rfl (h f (by simp)) hs
    have hw : wires sid (f :: fs) = H2.wireHeader f.2.2.length f.1 f.2.1 false sid ++ (f.2.2 ++ wires sid fs) := by
      simp [wires]
    rw [hw]
    rw [show H2.wireHeader f.2.2.length f.1 f.2.1 false sid ++ (f.2.2 ++ wires sid fs) =
      f.2.2.length / 65536 :: (H2.wireHeader f.2.2.length f.1 f.2.1 false sid ++ (f.2.2 ++ wires sid fs)).tail from rfl] at hr ⊢
    unfold readFrames
    simp only [hr]
    rw [wires_read maxFrame sid hs fs (fun g hg => h g (by simp [hg])) n (by simp at hn; omega)]
    rfl

theorem wires_length (sid : Nat) : ∀ fs : List (Nat × Nat × Bytes), fs.length ≤ (wires sid fs).length
  | [] => Nat.zero_le _
  | f :: fs => by
    have := wires_length sid fs
    have hw : wires sid (f :: fs) = H2.wireHeader f.2.2.length f.1 f.2.1 false sid ++ (f.2.2 ++ wires sid fs) := by simp [wires]
    rw [hw]
    simp only [List.length_cons, List.length_append, H2.wireHeader]
    omega

theorem message_wires (maxFrame sid : Nat) (hs : sid < 2 ^ 31) (fs : List (Nat × Nat × Bytes)) (h : ∀ f ∈ fs, f.2.2.length ≤ maxFrame) :
    readFrames maxFrame (wires sid fs).length (wires sid fs) = some (fs.map fun f => ⟨f.1, f.2.1, sid, f.2.2⟩) :=
  wires_read maxFrame sid hs fs h _ (wires_length sid fs)

/-- A response without content. -/
theorem message_empty (maxFrame sid : Nat) (hs : sid < 2 ^ 31) (block : Bytes) (hb : block.length ≤ maxFrame) :
    message maxFrame sid (H2.wireHeader block.length 1 5 false sid ++ block) = some (block, []) := by
  have := message_wires maxFrame sid hs [(1, 5, block)] (by simpa using hb)
  simp only [wires, List.flatMap_cons, List.flatMap_nil, List.append_nil, List.map_cons, List.map_nil] at this
  unfold message
  simp only [this]
  simp [Frame.bare, Frame.endStream, Frame.endHeaders, continued]

/-- A response with content. -/
theorem message_content (maxFrame sid : Nat) (hs : sid < 2 ^ 31) (block body : Bytes) (hb : block.length ≤ maxFrame) (hc : body.length ≤ maxFrame) :
    message maxFrame sid (H2.wireHeader block.length 1 4 false sid ++ block ++ (H2.wireHeader body.length 0 1 false sid ++ body)) = some (block, body) := by
  have := message_wires maxFrame sid hs [(1, 4, block), (0, 1, body)] (by simp; exact ⟨hb, hc⟩)
  simp only [wires, List.flatMap_cons, List.flatMap_nil, List.append_nil, List.map_cons, List.map_nil] at this
  unfold message
  simp only [this]
  simp [Frame.bare, Frame.endStream, Frame.endHeaders, continued, content]

theorem wireHeader_refused (maxFrame len type flags sid : Nat) (rest : Bytes) (hm : maxFrame < len) :
    readFrame maxFrame (H2.wireHeader len type flags false sid ++ rest) = none := by
  unfold H2.wireHeader readFrame
  simp only [List.cons_append, List.nil_append, Bool.false_eq_true, if_false, Nat.zero_add]
  have e1 : len / 65536 * 65536 + len / 256 % 256 * 256 + len % 256 = len := by omega
  rw [e1, if_pos (Or.inl hm)]

/-- A response that the client cannot take. -/
theorem message_bad (maxFrame sid : Nat) (hs : sid < 2 ^ 31) (block body : Bytes) (fl : Nat) (h : fl = 0 ∨ maxFrame < body.length) :
    message maxFrame sid (H2.wireHeader block.length 1 4 false sid ++ block ++ (H2.wireHeader body.length 0 fl false sid ++ body)) = none := by
  by_cases hb : block.length ≤ maxFrame
  · by_cases hc : body.length ≤ maxFrame
    · have h : fl = 0 := by omega
      subst h
      have := message_wires maxFrame sid hs [(1, 4, block), (0, 0, body)] (by simp; exact ⟨hb, hc⟩)
      simp only [wires, List.flatMap_cons, List.flatMap_nil, List.append_nil, List.map_cons, List.map_nil] at this
      unfold message
      simp only [this]
      simp [Frame.bare, Frame.endStream, Frame.endHeaders, continued, content]
    · have hr := wireHeader_read maxFrame block.length 1 4 sid block (H2.wireHeader body.length 0 fl false sid ++ body) rfl hb hs
      have hd := wireHeader_refused maxFrame body.length 0 fl sid body (by omega)
      have hf : ∀ n, readFrames maxFrame (n + 1) (H2.wireHeader body.length 0 fl false sid ++ body) = none := by
        intro n
        rw [show H2.wireHeader body.length 0 fl false sid ++ body =
          body.length / 65536 :: (H2.wireHeader body.length 0 fl false sid ++ body).tail from rfl] at hd ⊢
        unfold readFrames
        simp only [hd]
      have hn : ∀ n, readFrames maxFrame (n + 2) (H2.wireHeader block.length 1 4 false sid ++ (block ++ (H2.wireHeader body.length 0 fl false sid ++ body))) = none := by
        intro n
        rw [show H2.wireHeader block.length 1 4 false sid ++ (block ++ (H2.wireHeader body.length 0 fl false sid ++ body)) =
          block.length / 65536 :: (H2.wireHeader block.length 1 4 false sid ++ (block ++ (H2.wireHeader body.length 0 fl false sid ++ body))).tail from rfl] at hr ⊢
        unfold readFrames
        simp only [hr, hf, Option.map_none]
      unfold message
      rw [List.append_assoc]
      have hlen : ∃ n, (H2.wireHeader block.length 1 4 false sid ++ (block ++ (H2.wireHeader body.length 0 fl false sid ++ body))).length = n + 2 := by
        refine ⟨(H2.wireHeader block.length 1 4 false sid ++ (block ++ (H2.wireHeader body.length 0 fl false sid ++ body))).length - 2, ?_⟩
        simp only [List.length_append, H2.wireHeader, List.length_cons]
        omega
      obtain ⟨n, e⟩ := hlen
      rw [e, hn]
  · have hr := wireHeader_refused maxFrame block.length 1 4 sid (block ++ (H2.wireHeader body.length 0 fl false sid ++ body)) (by omega)
    have hn : ∀ n, readFrames maxFrame (n + 1) (H2.wireHeader block.length 1 4 false sid ++ (block ++ (H2.wireHeader body.length 0 fl false sid ++ body))) = none := by
      intro n
      rw [show H2.wireHeader block.length 1 4 false sid ++ (block ++ (H2.wireHeader body.length 0 fl false sid ++ body)) =
        block.length / 65536 :: (H2.wireHeader block.length 1 4 false sid ++ (block ++ (H2.wireHeader body.length 0 fl false sid ++ body))).tail from rfl] at hr ⊢
      unfold readFrames
      simp only [hr]
    unfold message
    rw [List.append_assoc]
    have hlen : ∃ n, (H2.wireHeader block.length 1 4 false sid ++ (block ++ (H2.wireHeader body.length 0 fl false sid ++ body))).length = n + 1 := by
      refine ⟨(H2.wireHeader block.length 1 4 false sid ++ (block ++ (H2.wireHeader body.length 0 fl false sid ++ body))).length - 1, ?_⟩
      simp only [List.length_append, H2.wireHeader, List.length_cons]
      omega
    obtain ⟨n, e⟩ := hlen
    rw [e, hn]

/-! ## Header blocks -/

theorem splitHeaders_small (m : Nat) (nc : Bool) : ∀ (fields : List Bytes) (acc : Bytes) (over : Bool), acc.length + fields.flatten.length < m →
    Send.splitHeaders m nc fields acc over = [⟨if over then 9 else 1, if nc then 5 else 4, acc ++ fields.flatten⟩]
  | [], acc, over, _ => by simp [Send.splitHeaders]
  | p :: ps, acc, over, h => by
    simp only [List.flatten_cons, List.length_append] at h
    unfold Send.splitHeaders
    rw [if_neg (by omega), splitHeaders_small m nc ps (acc ++ p) over (by simp only [List.length_append]; omega)]
    simp

theorem encodeField_ok (k : Conn) (e : Entry) (ho : Hpack.okHeader e) :
    ∀ limit t, ∃ r tab, encodeField k [] e = r.wire ∧ rfcRep limit t r = some (e, tab) := by
  intro limit t
  unfold encodeField
  split
  · refine ⟨.literal .update (.new ⟨false, e.1⟩) ⟨false, e.2⟩, Hpack.rfcInsert limit t e, ?_, by simp [rfcRep]⟩
    simp only [Rep.wire, Hpack.prefixOf, Hpack.pattern]
    rw [Hpack.C08_encode_small_partial 6 _ _ (by omega) (by simp), Hpack.encodeString_eq k.g e.2 ho.2.1, Hpack.encodeString_eq k.g e.1 ho.1]
    congr 3
    have : k.g % 64 < 64 := Nat.mod_lt _ (by omega)
    omega
  · obtain ⟨rs, tab, h1, h2⟩ := Hpack.C61_response_headers_partial k.g limit [e] (by simpa using ho) t
    simp only [Hpack.encodeBlock, List.flatMap_cons, List.flatMap_nil, List.append_nil] at h1
    cases rs with
    | nil => simp [rfcBlock] at h2
    | cons r rs =>
      cases rs with
      | nil =>
        unfold rfcBlock at h2
        cases hr : rfcRep limit t r with
        | none => rw [hr] at h2; simp at h2
        | some p =>
          rw [hr] at h2
          simp only [rfcBlock, Option.map_some, Option.some.injEq, Prod.mk.injEq, List.cons.injEq, and_true] at h2
          exact ⟨r, p.2, by simpa using h1, by rw [← h2.1, hr]⟩
      | cons r' rs =>
        exfalso
        unfold rfcBlock at h2
        cases hr : rfcRep limit t r with
        | none => rw [hr] at h2; simp at h2
        | some p =>
          rw [hr] at h2
          simp only [rfcBlock] at h2
          cases hr' : rfcRep limit p.2 r' with
          | none => rw [hr'] at h2; simp at h2
          | some q =>
            rw [hr'] at h2
            simp only at h2
            cases hb : rfcBlock limit q.2 rs with
            | none => rw [hb] at h2; simp at h2
            | some z => rw [hb] at h2; simp at h2

theorem matchDynamic_apart (name value : Bytes) : ∀ (es : List Entry) (j : Nat), (∀ e ∈ es, e.1 ≠ [] → e.1 <+: name → ¬ e.2 <+: value) →
    Hpack.matchDynamic es j name value = none
  | [], _, _ => rfl
  | (tn, tv) :: es, j, h => by
    have ih := matchDynamic_apart name value es (j + 1) fun e he => h e (by simp [he])
    have h0 := h (tn, tv) (by simp)
    have hm : Hpack.matchEntry j (Hpack.nonEmpty tn) (Hpack.nonEmpty tv) name value = none := by
      unfold Hpack.matchEntry Hpack.nonEmpty
      by_cases h1 : tn = []
      · simp [h1]
      · simp only [h1, if_false, Option.map_some, Option.getD_some]
        by_cases h2 : tn <+: name
        · have h3 := h0 h1 h2
          have h4 : tv ≠ [] := by rintro rfl; exact h3 (List.nil_prefix)
          have h5 : tv.isPrefixOf value = false := by
            rw [Bool.eq_false_iff]
            exact fun hx => h3 (List.isPrefixOf_iff_prefix.1 hx)
          simp [h4, h5]
        · have h5 : tn.isPrefixOf name = false := by
            rw [Bool.eq_false_iff]
            exact fun hx => h2 (List.isPrefixOf_iff_prefix.1 hx)
          simp [h5]
    unfold Hpack.matchDynamic
    simp only [hm, ih]

theorem matchStatic_found (name value : Bytes) : ∀ (es : List (Bytes × Option Bytes)) (j : Nat), (name, none) ∈ es →
    Hpack.matchStatic es j name value ≠ none
  | [], _, h => by simp at h
  | (tn, tv) :: es, j, h => by
    unfold Hpack.matchStatic
    cases hm : Hpack.matchEntry j (some tn) tv name value with
    | some k => simp
    | none =>
      simp only
      refine matchStatic_found name value es (j + 1) ?_
      rcases List.mem_cons.1 h with h | h
      · injection h with h1 h2
        subst h1 h2
        simp [Hpack.matchEntry] at hm
      · exact h

/-- Fields are encoded as if the client had entered nothing in its table. -/
theorem encodeField_apart (k : Conn) (tab : List Entry) (e : Entry)
    (h : e.1 ∉ [b!"content-type", b!"content-encoding", b!"date", b!"server", b!"content-length", b!"etag", b!"last-modified", b!"allow"] → ∀ x ∈ tab, x.1 ≠ [] → x.1 <+: e.1 → ¬ x.2 <+: e.2) :
    encodeField k tab e = encodeField k [] e := by
  have hc : Hpack.classify tab e.1 e.2 = Hpack.classify [] e.1 e.2 := by
    unfold Hpack.classify
    cases hs : Hpack.matchStatic Hpack.staticTable 0 e.1 e.2 with
    | some j => rfl
    | none =>
      have key : ∀ n ∈ [b!"content-type", b!"content-encoding", b!"date", b!"server", b!"content-length", b!"etag", b!"last-modified", b!"allow"], (n, none) ∈ Hpack.staticTable := by decide +kernel
      have hn : e.1 ∉ [b!"content-type", b!"content-encoding", b!"date", b!"server", b!"content-length", b!"etag", b!"last-modified", b!"allow"] :=
        fun hx => matchStatic_found e.1 e.2 _ 0 (key _ hx) hs
      simp only [matchDynamic_apart e.1 e.2 tab _ (h hn)]
      rfl
  unfold encodeField Hpack.encodeHeader
  rw [hc]

theorem encodeFields_apart (k : Conn) (tab : List Entry) (fs : Pairs) (h : Apart tab fs) :
    fs.map (encodeField k tab) = fs.map (encodeField k []) :=
  List.map_congr_left fun e he => encodeField_apart k tab e (h e he)

theorem apart_length {tab : List Entry} {fs : Pairs} (h : Apart tab fs) (len : Bytes) : Apart tab (fs ++ [(b!"content-length", len)]) := by
  intro p hp hn
  rcases List.mem_append.1 hp with hp | hp
  · exact h p hp hn
  · rw [List.mem_singleton.1 hp] at hn
    exact absurd (by simp) hn

theorem encodeFields_ok (k : Conn) : ∀ (es : List Entry), (∀ e ∈ es, Hpack.okHeader e) → ∀ limit t, ∃ rs tab,
    (es.map (encodeField k [])).flatten = rs.flatMap Rep.wire ∧ rfcBlock limit t rs = some (es, tab)
  | [], _, limit, t => ⟨[], t, rfl, rfl⟩
  | e :: es, h, limit, t => by
    obtain ⟨r, tab, h1, h2⟩ := encodeField_ok k e (h e (by simp)) limit t
    obtain ⟨rs, tab', h3, h4⟩ := encodeFields_ok k es (fun x hx => h x (by simp [hx])) limit tab
    exact ⟨r :: rs, tab', by simp [h1, h3], by simp [rfcBlock, h2, h4]⟩

theorem rfcRep_uniform (r : Rep) (e : Entry) (tab : List Entry) (h : rfcRep 0 [] r = some (e, tab)) (limit : Nat) (t : List Entry) :
    ∃ tab', rfcRep limit t r = some (e, tab') ∧ ∀ x ∈ tab', x ∈ t ∨ x = e := by
  have hlk : ∀ i e, Hpack.rfcLookup [] i = some e → Hpack.rfcLookup t i = some e := by
    intro i e h
    unfold Hpack.rfcLookup at h ⊢
    by_cases h0 : i = 0
    · rw [if_pos h0] at h; simp at h
    · rw [if_neg h0, List.append_nil] at h
      rw [if_neg h0, List.getElem?_append_left (List.getElem?_eq_some_iff.1 h).1, h]
  have hfit : ∀ (l : List Entry) n, ∀ x ∈ Hpack.fit n l, x ∈ l := by
    intro l
    induction l with
    | nil => intro n x hx; simp [Hpack.fit] at hx
    | cons y l ih =>
      intro n x hx
      unfold Hpack.fit at hx
      split at hx
      · rcases List.mem_cons.1 hx with hx | hx
        · simp [hx]
        · simp [ih _ x hx]
      · simp at hx
  have hins : ∀ e : Entry, ∀ x ∈ Hpack.rfcInsert limit t e, x ∈ t ∨ x = e := by
    intro e x hx
    rcases List.mem_cons.1 (hfit _ _ x hx) with hx | hx
    · exact Or.inr hx
    · exact Or.inl hx
  cases r with
  | indexed i =>
    simp only [rfcRep, Option.map_eq_some_iff] at h
    obtain ⟨y, hy, he⟩ := h
    injection he with h1 h2
    subst h1
    exact ⟨t, by simp [rfcRep, hlk i y hy], fun x hx => Or.inl hx⟩
  | literal ty n v =>
    cases n with
    | index i =>
      simp only [rfcRep, Option.map_eq_some_iff] at h
      obtain ⟨y, hy, he⟩ := h
      injection he with h1 h2
      subst h1
      refine ⟨if ty = .update then Hpack.rfcInsert limit t (y.1, v.bytes) else t, by simp only [rfcRep, hlk i y hy, Option.map_some], fun x hx => ?_⟩
      split at hx
      · exact hins _ x hx
      · exact Or.inl hx
    | new n =>
      simp only [rfcRep, Option.some.injEq, Prod.mk.injEq] at h
      obtain ⟨h1, _⟩ := h
      subst h1
      refine ⟨_, rfl, fun x hx => ?_⟩
      split at hx
      · exact hins _ x hx
      · exact Or.inl hx

/-- The same representations for every client. -/
theorem encodeFields_uniform (k : Conn) : ∀ (es : List Entry), (∀ e ∈ es, Hpack.okHeader e) → ∃ rs,
    (es.map (encodeField k [])).flatten = rs.flatMap Rep.wire ∧ ∀ limit t, ∃ tab, rfcBlock limit t rs = some (es, tab) ∧ ∀ x ∈ tab, x ∈ t ∨ x ∈ es
  | [], _ => ⟨[], rfl, fun _ t => ⟨t, rfl, fun _ hx => Or.inl hx⟩⟩
  | e :: es, h => by
    obtain ⟨r, tab, h1, h2⟩ := encodeField_ok k e (h e (by simp)) 0 []
    obtain ⟨rs, h3, h4⟩ := encodeFields_uniform k es fun x hx => h x (by simp [hx])
    refine ⟨r :: rs, by simp [h1, h3], fun limit t => ?_⟩
    obtain ⟨t1, h5, h6⟩ := rfcRep_uniform r e tab h2 limit t
    obtain ⟨t2, h7, h8⟩ := h4 limit t1
    refine ⟨t2, by simp [rfcBlock, h5, h7], fun x hx => ?_⟩
    rcases h8 x hx with hx | hx
    · rcases h6 x hx with hx | hx
      · exact Or.inl hx
      · exact Or.inr (by simp [hx])
    · exact Or.inr (by simp [hx])

theorem rfcBlock_append (limit : Nat) : ∀ (rs rs' : List Rep) (t : List Entry), rfcBlock limit t (rs ++ rs') =
    match rfcBlock limit t rs with
    | none => none
    | some p => (rfcBlock limit p.2 rs').map fun q => (p.1 ++ q.1, q.2)
  | [], rs', t => by simp [rfcBlock]
  | r :: rs, rs', t => by
    simp only [List.cons_append, rfcBlock]
    cases rfcRep limit t r with
    | none => rfl
    | some p =>
      simp only
      rw [rfcBlock_append limit rs rs' p.2]
      cases rfcBlock limit p.2 rs with
      | none => rfl
      | some q =>
        simp only [Option.map_some]
        cases rfcBlock limit q.2 rs' <;> rfl

theorem rfcInt_short (p b i : Nat) (h : i < 2 ^ p - 1) : (Hpack.rfcInt p b i).length = 1 := by
  unfold Hpack.rfcInt
  rw [if_pos h]; rfl

theorem matchStatic_none (name value : Bytes) : ∀ (es : List (Bytes × Option Bytes)) (j : Nat), (∀ e ∈ es, ¬ e.1 <+: name) → Hpack.matchStatic es j name value = none
  | [], _, _ => rfl
  | (tn, tv) :: es, j, h => by
    have h1 : tn.isPrefixOf name = false := by
      rw [Bool.eq_false_iff]
      exact fun hx => h (tn, tv) (by simp) (List.isPrefixOf_iff_prefix.1 hx)
    unfold Hpack.matchStatic
    simp only [Hpack.matchEntry, Option.map_some, Option.getD_some, h1, Bool.false_and, Bool.and_false, Bool.false_eq_true, if_false]
    exact matchStatic_none name value es (j + 1) fun e he => h e (by simp [he])

theorem encodeHeader_client (g : Nat) (dyn : List Entry) (p : Entry) (hn : p.1 ≠ []) (hv : p.2 ≠ []) (j : Nat) (hj : dyn[j]? = some p) (h65 : j < 65)
    (hfirst : ∀ e ∈ dyn.take j, ¬ e.1 <+: p.1) (hst : ∀ e ∈ Hpack.staticTable, ¬ e.1 <+: p.1) :
    Hpack.encodeHeader g dyn p.1 p.2 = (Rep.indexed (62 + j)).wire := by
  have hcl : Hpack.classify dyn p.1 p.2 = .indexed (Hpack.staticLen + j) := by
    unfold Hpack.classify
    rw [matchStatic_none p.1 p.2 _ 0 hst]
    simp only [Hpack.matchDynamic_at p.1 p.2 hn hv dyn j Hpack.staticLen hj fun e he => Bool.eq_false_iff.2 fun hx => hfirst e he (List.isPrefixOf_iff_prefix.1 hx)]
  unfold Hpack.encodeHeader
  rw [hcl]
  simp only [Rep.wire]
  have hs : Hpack.staticLen + j + 1 = 62 + j := by unfold Hpack.staticLen; omega
  rw [hs, Hpack.C08_encode_small_partial 7 _ _ (by omega) (by simp; omega)]
  congr 1
  have : g % 128 < 128 := Nat.mod_lt _ (by omega)
  omega

theorem encodeField_length (k : Conn) (e : Entry) (ho : Hpack.okHeader e) : (encodeField k [] e).length ≤ e.1.length + e.2.length + 3 := by
  have hi : ∀ p b i : Nat, i < 2 ^ p - 1 → (Hpack.encodeInt p b i).length = 1 := by
    intro p b i h
    unfold Hpack.encodeInt
    rw [if_pos h]; rfl
  have hs : ∀ s : Bytes, s.length < 127 → (Hpack.encodeString k.g s).length = s.length + 1 := by
    intro s h
    unfold Hpack.encodeString
    rw [List.length_append, hi 7 _ _ (by simpa using h)]
    omega
  have hst : Hpack.staticTable.length = 61 := by decide +kernel
  unfold encodeField
  split
  · rw [List.length_append, List.length_append, hi 6 _ _ (by decide), hs _ ho.1, hs _ ho.2.1]
    omega
  · unfold Hpack.encodeHeader Hpack.classify
    cases hc : Hpack.matchStatic Hpack.staticTable 0 e.1 e.2 with
    | none =>
      simp only [Hpack.matchDynamic]
      rw [List.length_append, List.length_append, hi 6 _ _ (by decide), hs _ ho.1, hs _ ho.2.1]
      omega
    | some j =>
      rcases Hpack.matchStatic_spec e.1 e.2 Hpack.staticTable 0 j hc with ⟨m, e', w, rfl, a1, _⟩ | ⟨m, e', rfl, a1, _⟩
      · have hm : m < Hpack.staticTable.length := (List.getElem?_eq_some_iff.1 a1).1
        simp only [Nat.zero_add]
        rw [hi 7 _ _ (by simp; omega)]
        omega
      · have hm : m < Hpack.staticTable.length := (List.getElem?_eq_some_iff.1 a1).1
        simp only [Nat.zero_add]
        rw [List.length_append, hi 6 _ _ (by simp; omega), hs _ ho.2.1]
        omega

theorem encodeFields_length (k : Conn) : ∀ (es : List Entry), (∀ e ∈ es, Hpack.okHeader e) →
    (es.map (encodeField k [])).flatten.length ≤ size es
  | [], _ => Nat.le_refl _
  | e :: es, h => by
    have h1 := encodeField_length k e (h e (by simp))
    have h2 := encodeFields_length k es fun x hx => h x (by simp [hx])
    simp only [List.map_cons, List.flatten_cons, List.length_append, size, List.sum_cons] at h2 ⊢
    omega

/-! ## The request -/

theorem cells_hold (alloc : Nat → Bool) (es : List Entry) : H2R.Holds (cells alloc es) es := by
  unfold H2R.Holds cells
  apply List.ext_getElem
  · simp
  · intro n h1 h2
    simp only [List.getElem_map, List.getElem_mapIdx]
    generalize es[n]'h2 = e
    apply Prod.ext
    · simp only [cell]
      split
      · next h => simp only [Bool.and_eq_true, decide_eq_true_eq] at h; simp [h.1]
      · rfl
    · simp only [cell]
      split
      · next h => simp only [Bool.and_eq_true, decide_eq_true_eq] at h; simp [h.1]
      · rfl

theorem known_not_multipart : ∀ (cs : List HField), (∀ f ∈ cs, f.name.getD [] ≠ b!"Content-Type" ∧
      (f.name.getD [] = b!"content-type" → ∃ t ∈ contentTypes, t ≠ b!"multipart/form-data" ∧ t <+: f.value.getD [])) →
    Multipart.isMultipart cs = some false
  | [], _ => rfl
  | f :: cs, h => by
    have ih := known_not_multipart cs fun g hg => h g (by simp [hg])
    obtain ⟨h1, h2⟩ := h f (by simp)
    rw [Multipart.isMultipart]
    split
    · next hc =>
      simp only [Multipart.isContentType, Bool.and_eq_true, Bool.or_eq_true, beq_iff_eq] at hc
      have hn : f.name.getD [] = b!"content-type" := by
        rcases hc.1 with e | e
        · rw [e] at h1; exact absurd rfl h1
        · rw [e]; rfl
      obtain ⟨t, ht, hne, hp⟩ := h2 hn
      obtain ⟨t', e, hne'⟩ := Trip.known_type _ t ht hne hp
      simp only [e, if_neg hne', ih]
    · exact ih

theorem no_coding : ∀ (cs : List HField), (∀ f ∈ cs, H2R.Named (f.name.getD [], f.value.getD []) ∧ f.name.getD [] ≠ b!"content-encoding") →
    H2R.contentEncoding b!"content-encoding" cs = some none
  | [], _ => rfl
  | f :: cs, h => by
    have ih := no_coding cs fun g hg => h g (by simp [hg])
    obtain ⟨h1, h2⟩ := h f (by simp)
    rw [H2R.contentEncoding]
    cases e : f.name with
    | none => rw [e] at h1; exact absurd rfl h1.1
    | some n =>
      rw [e] at h1 h2
      simp only
      rw [H2R.cstr_named (n := n) h1, if_neg (by simpa using h2)]
      exact ih

theorem good_named {q : Ask} (hg : q.Good) : ∀ p ∈ q.fields, H2R.Named p := by
  intro p hp
  obtain ⟨⟨h1, h2, _⟩, _⟩ := hg.names p hp
  exact ⟨h1, fun h => (h2 0 h).2 rfl⟩

theorem body_known (q : Ask) (hg : q.Good) (alloc : Nat → Bool) : H2R.bodyStep (cells alloc q.fields) q.body = .ok (q.body.map .bytes) := by
  have hh := cells_hold alloc q.fields
  have hm : ∀ f ∈ cells alloc q.fields, (f.name.getD [], f.value.getD []) ∈ q.fields := by
    intro f hf
    have : (f.name.getD [], f.value.getD []) ∈ (cells alloc q.fields).map fun f => (f.name.getD [], f.value.getD []) := List.mem_map.2 ⟨f, hf, rfl⟩
    rwa [hh] at this
  have h1 : H2R.contentEncoding b!"content-encoding" (cells alloc q.fields) = some none :=
    no_coding _ fun f hf => ⟨good_named hg _ (hm f hf), hg.noCoding _ (hm f hf)⟩
  have h2 : Multipart.isMultipart (cells alloc q.fields) = some false := by
    apply known_not_multipart
    intro f hf
    refine ⟨?_, hg.known _ (hm f hf)⟩
    intro e
    have := (hg.names _ (hm f hf)).1.2.2 67 (by simp only [e]; decide)
    omega
  rw [H2R.bodyStep]
  split
  · rfl
  · rw [h1]
    simp only
    cases q.body with
    | none => simp only [H2R.multipart, h2]; rfl
    | some b => simp only [H2R.multipart, Multipart.bodySeen, h2]; rfl

theorem answered_in (e : ReqEvent.Env) (q : Ask) (hg : q.Good) (alloc : Nat → Bool) :
    H2R.answer e ⟨true, cells alloc q.fields, q.body, false⟩ =
      H2R.choose e ⟨q.method, b!"http", q.path, q.query, cells alloc q.fields, q.body.map .bytes⟩ := by
  have := (H2R.answer_well_formed e true (cells alloc q.fields) q.fields q.method true q.path q.query q.body (cells_hold alloc q.fields)
    hg.wellFormed hg.path hg.query).2.2.2 hg.agreeable
  rw [this, body_known q hg alloc]

theorem answered (a : App) (q : Ask) (hg : q.Good) (alloc : Nat → Bool) :
    H2R.answer a.env ⟨true, cells alloc q.fields, q.body, false⟩ =
      H2R.choose a.env ⟨q.method, b!"http", q.path, q.query, cells alloc q.fields, q.body.map .bytes⟩ := answered_in a.env q hg alloc

theorem request_seen (q : Ask) (hg : q.Good) (alloc : Nat → Bool) (ps : Pairs) (hps : ∀ p ∈ ps, (∀ c ∈ p.1, c < 128) ∧ ∀ c ∈ p.2, c ∈ q.path) :
    PyReq.pyRequest ⟨q.path, q.query, ps, cells alloc q.fields, q.body⟩ = .call (dictionary q ps) := by
  have hf : PyReq.fields (cells alloc q.fields) = q.fields := cells_hold alloc q.fields
  have hp : ∀ c ∈ q.path, c < 128 := fun c hc => Trip.path_ascii c (hg.path.2 c hc)
  rw [PyReq.C97_ascii_request_seen]
  · simp only [hf]; rfl
  · exact hp
  · intro x e c hc
    exact Trip.query_ascii c ((hg.query x e).2 c hc)
  · exact fun p h => ⟨(hps p h).1, fun c hc => hp c ((hps p h).2 c hc)⟩
  · intro p h
    have h : p ∈ PyReq.fields (cells alloc q.fields) := h
    rw [hf] at h
    obtain ⟨⟨_, h2, _⟩, h3⟩ := hg.names p h
    exact ⟨fun c hc => (h2 c hc).1, fun c hc => (h3 c hc).1⟩

theorem choose_returns (a : App) (hr : ∀ x ∈ a.routes, WrittenPath x.1) (q : Ask) (hg : q.Good) (alloc : Nat → Bool) (ret : PyBridge.Ret)
    (h : Returns a q ret) :
    ∃ i, H2R.choose a.env ⟨q.method, b!"http", q.path, q.query, cells alloc q.fields, q.body.map .bytes⟩ =
        .handler i ⟨q.method, b!"http", q.path, q.query, cells alloc q.fields, q.body.map .bytes⟩ ∧
      result a ⟨q.method, b!"http", q.path, q.query, cells alloc q.fields, q.body.map .bytes⟩ = some ret := by
  obtain ⟨f, ps, hc, e⟩ := h
  obtain ⟨r, hfi, rfl, hv, ht, hfits⟩ := Trip.find_chosen a hr hc
  obtain ⟨qs, hb, hq, hps⟩ := Trip.bind_values a ht hv hfits
  refine ⟨r.fn, ?_, ?_⟩
  · simp only [H2R.choose, App.env, hfi, Option.map_some]
  · unfold result
    simp only [hfi, hb]
    have hbody : plainBody (q.body.map .bytes) = some q.body := by cases q.body <;> rfl
    rw [hbody]
    simp only [hq]
    rw [request_seen q hg alloc ps hps]
    simp only [e]

/-! ## The header block of the request -/

/-- The table of the connection holds these entries. -/
def Holds (t : Hpack.DTab) (limit : Nat) (tab : List Entry) : Prop := ∃ xs, Hpack.Repr t xs ∧ Hpack.ents xs = tab ∧ t.limit = limit

theorem holds_init (g : Hpack.DNode) (limit : Nat) : Holds (Hpack.DTab.init g limit) limit [] := ⟨[], Hpack.init_repr g limit, rfl, rfl⟩

theorem filterMap_range {α : Type} (f : Nat → Option α) (l : List α) (h : ∀ k, f k = l[k]?) : (List.range l.length).filterMap f = l := by
  induction l generalizing f with
  | nil => rfl
  | cons x l ih =>
    rw [List.length_cons, List.range_succ_eq_map, List.filterMap_cons, h 0]
    simp only [List.getElem?_cons_zero, List.filterMap_map]
    rw [ih (f ∘ Nat.succ) fun k => by simp [h]]

theorem holds_dynOf {t : Hpack.DTab} {limit : Nat} {tab : List Entry} (h : Holds t limit tab) : dynOf t = tab := by
  obtain ⟨xs, h1, rfl, _⟩ := h
  unfold dynOf
  rw [h1.count, show xs.length = (Hpack.ents xs).length from by simp [Hpack.ents]]
  exact filterMap_range _ _ fun k => Hpack.lookup_repr t xs h1 k

theorem decoded (t : Hpack.DTab) {limit : Nat} {tab tab' : List Entry} (ht : Holds t limit tab) (i : Incoming) (fields : Pairs)
    (hc : Decodes limit tab tab' i fields) :
    ∃ t', Hpack.parseHeaders i.len ⟨t, []⟩ i.len 0 (some i.block) = some (.ok ⟨t', fields⟩) ∧ Holds t' limit tab' ∧ dynOf t' = tab' := by
  obtain ⟨hne, rs, rest, hf, hr, hl, hb, hok, hs⟩ := hc
  obtain ⟨ys, hy, hye, hyl⟩ := ht
  obtain ⟨st, xs, h1, h2, h3, h4, h5⟩ := Hpack.parseHeaders_spec rs i.len ⟨t, []⟩ ys 0 i.block rest fields tab' hy hok
    (by simp only [hye, hyl]; exact hb) hne hr hf hs (by omega)
  have hh : Holds st.dtab limit tab' := ⟨xs, h3, h4, by rw [h5]; exact hyl⟩
  refine ⟨st.dtab, ?_, hh, holds_dynOf hh⟩
  rw [Nat.zero_add, ← hl] at h1
  rw [h1]
  have : st = ⟨st.dtab, fields⟩ := by
    cases st
    simp only [List.nil_append] at h2
    simp only [h2]
  rw [← this]

/-! ## The response -/

theorem prepare_body (c : Cfg) (body : Bytes) (hth : 0 < c.threshold) (hover : ∀ k, c.overflow (c.compress k body) = false) :
    ∃ p, H2B.prepare c.compress c.overflow c.threshold c.acc false (if body = [] then none else some body) none none = some (.ready p) ∧
      p.coding = coding c body ∧ H2B.Right true [] p (coded c body) ∧ (p.kind = .noContent ↔ body = []) := by
  by_cases hb : body = []
  · subst hb
    have hc : coding c [] = none := by unfold coding; rw [if_neg (by simp; omega)]
    have hd : coded c [] = [] := by unfold coded; rw [hc]
    refine ⟨⟨.noContent, 0, 0, none⟩, ?_, hc.symm, ?_, by simp⟩
    · have h0 : ¬ c.threshold ≤ 0 := by omega
      simp [H2B.prepare, H2B.source, h0]
    · rw [hd]
      exact ⟨rfl, rfl, H2B.delivers_nothing _ _ _ rfl⟩
  · rw [if_neg hb]
    have e : H2B.prepare c.compress c.overflow c.threshold c.acc false (some body) none none =
      (match coding c body with
        | some k =>
          if k = 0 then some (.ready ⟨.body (some body), body.length, body.length, some k⟩)
          else some (.ready ⟨.encoded (c.compress k body), (c.compress k body).length, (c.compress k body).length, some k⟩)
        | none => some (.ready ⟨.body (some body), body.length, body.length, none⟩)) := by
      simp only [H2B.prepare, H2B.source, coding]
      simp
      split
      · rename_i k hk
        simp only [hk, hover]
        simp [Response.identity]
      · rename_i hk
        simp only [hk]
    rw [e]
    unfold coded
    cases hc : coding c body with
    | none => exact ⟨_, rfl, rfl, H2B.right_body _ _ _ _, by simp [hb]⟩
    | some k =>
      simp only
      by_cases hk : k = 0
      · rw [if_pos hk, if_pos hk]
        exact ⟨_, rfl, rfl, H2B.right_body _ _ _ _, by simp [hb]⟩
      · rw [if_neg hk, if_neg hk]
        exact ⟨_, rfl, rfl, H2B.right_encoded _ _ _ _, by simp [hb]⟩

theorem finish_ok (c : Cfg) (code : Nat) (h0 h : HList) (body : Bytes) (hst : PyBridge.statusPseudo (some code) h0 = some h) (hi : Inv h)
    (hcl : b!"content-length" ∉ (view h).map (·.1)) (hth : 0 < c.threshold) (hover : ∀ k, c.overflow (c.compress k body) = false)
    (hd : body = [] → c.dflt code = none) :
    ∃ r, finish c (some code) h0 (if body = [] then none else some body) = some r ∧
      view r.header = view h ++ codingField c body ++
        [(b!"content-length", Response.contLenStr (coded c body).length)] ∧
      H2B.Right true r.disk r.plan (coded c body) ∧ (r.plan.kind = .noContent ↔ body = []) := by
  obtain ⟨p, h1, h2, h3, h4⟩ := prepare_body c body hth hover
  have key : ∃ h', addCoding c h p.coding = h' ∧ Inv h' ∧
      view h' = view h ++ codingField c body := by
    rw [h2]
    unfold codingField
    cases coding c body with
    | none => exact ⟨h, rfl, hi, by simp⟩
    | some k =>
      obtain ⟨i1, v1⟩ := Header.add_ok hi (n := b!"content-encoding") ⟨by simp, by decide⟩ (c.encName k) false
      exact ⟨_, rfl, i1, by unfold addCoding; rw [v1]; simp⟩
  obtain ⟨h', e, hi', hv'⟩ := key
  obtain ⟨h'', e2, _, hv''⟩ := PyBridge.addModify_ok hi' (n := b!"content-length") ⟨by simp, by decide⟩ (Response.contLenStr p.contentLength)
  refine ⟨⟨h'', p, []⟩, ?_, ?_, h3, h4⟩
  · unfold finish
    simp only [hst]
    rw [if_neg]
    · simp only [h1]
      simp only [e, e2]
    · intro hx
      simp only [Bool.and_eq_true, decide_eq_true_eq, Option.getD_some] at hx
      by_cases hb : body = []
      · rw [hd hb] at hx
        simp at hx
      · rw [if_neg hb] at hx; simp at hx
  · simp only
    rw [hv'', hv', h3.1, PyBridge.setFirst_new]
    rw [List.map_append, List.mem_append]
    rintro (hx | hx)
    · exact hcl hx
    · revert hx
      unfold codingField
      cases coding c body with
      | none => simp
      | some k => simp

theorem digits_short (n : Nat) (h : n < 2 ^ 24) : (Response.contLenStr n).length ≤ 8 := by
  rw [(Response.C53_digits_reserved_exact n).2]
  have key : ∀ (f n : Nat) (acc : Bytes) (d : Nat), n < 10 ^ (d + 1) → n ≤ f → (Response.printLd (f + 1) n acc).length ≤ d + 1 + acc.length := by
    intro f
    induction f with
    | zero =>
      intro n acc d _ hf
      have : n = 0 := by omega
      subst this
      simp [Response.printLd]
      omega
    | succ f ih =>
      intro n acc d hn hf
      unfold Response.printLd
      split
      · simp; omega
      · next hge =>
        cases d with
        | zero => simp at hn; omega
        | succ d =>
          have := ih (n / 10) ((48 + n % 10) :: acc) d (by rw [Nat.pow_succ] at hn; omega) (by omega)
          simp only [List.length_cons] at this
          omega
  have := key n n [] 7 (by simp at h ⊢; omega) (Nat.le_refl _)
  simpa [Response.decimal] using this

theorem contentLength_ok (n : Nat) (h : n < 2 ^ 24) : Hpack.okHeader (b!"content-length", Response.contLenStr n) := by
  have := digits_short n h
  have key1 : b!"content-length" ≠ b!"accept-language" ∧ b!"content-length" ≠ b!"if-none-matcho" ∧
    ∀ e ∈ Hpack.staticTable, e.1.isPrefixOf b!"content-length" = true → e.1 = b!"content-length" := by decide +kernel
  refine ⟨by simp, by simp only; omega, key1.1, key1.2.1, key1.2.2, ?_⟩
  have key : ∀ e ∈ Hpack.staticTable, e.1 = b!"content-length" → e.2 = none := by decide +kernel
  intro e he h1 w hw
  rw [key e he h1] at hw
  simp at hw

/-- The header frame of a response is written. -/
theorem frames_written (k : Conn) (hk : 16384 ≤ k.maxFrame ∧ k.maxFrame < 2 ^ 24) (sid : Nat) (hsid : sid < 2 ^ 31) (r : Resp) (s : Writes)
    (fs : Pairs) (n : Nat) (hv : view r.header = fs) (tab : List Entry) (hl : (fs.map (encodeField k tab)).flatten.length ≤ 1000) (hw : Takes s n) :
    ∃ fr, headerFrames k tab r = some fr ∧ writeFrames sid fr s.frames =
      (H2.wireHeader (fs.map (encodeField k tab)).flatten.length 1 (if decide (r.plan.kind = .noContent) then 5 else 4) false sid ++ (fs.map (encodeField k tab)).flatten, true) := by
  generalize hF : fs.map (encodeField k tab) = F at hl
  have hframes : headerFrames k tab r = some [⟨1, if decide (r.plan.kind = .noContent) then 5 else 4, F.flatten⟩] := by
    unfold headerFrames
    have hv' : (r.header.items.map fun f => (f.name.getD [], f.value.getD [])) = view r.header := rfl
    simp only [hv', hv, hF]
    rw [if_neg (by omega)]
    unfold Send.headerFrames
    rw [splitHeaders_small _ _ _ _ _ (by simp only [List.length_nil]; omega)]
    simp
  obtain ⟨n, ss, hfr, hss, hsl⟩ := hw.frame
  have hwire : ∀ len ty fl, len < 2 ^ 24 → H2.frameHeader len ty fl false sid = H2.wireHeader len ty fl false sid :=
    fun len ty fl h => H2.C07_written_header_layout len ty fl sid false h hsid
  have hwl : ∀ len ty fl, (H2.wireHeader len ty fl false sid).length = 9 := fun _ _ _ => rfl
  have hwf : ∀ fl, writeFrames sid [⟨1, fl, F.flatten⟩] s.frames = (H2.wireHeader F.flatten.length 1 fl false sid ++ F.flatten, true) := by
    intro fl
    have hx := frame_written (H2.wireHeader F.flatten.length 1 fl false sid) F.flatten
      (by intro h; have := hwl F.flatten.length 1 fl; rw [h] at this; simp at this) n ss hss (by rw [hwl]; omega)
    rw [← hwire _ _ _ (by omega)] at hx
    unfold writeFrames
    rw [hfr]
    simp only [List.headD_cons, List.tail_cons, hx]
    rw [hwire _ _ _ (by omega)]
    simp [writeFrames]
  exact ⟨_, hframes, hwf _⟩

/-- The header frame of a response. -/
theorem sent_frame (k : Conn) (hk : 16384 ≤ k.maxFrame ∧ k.maxFrame < 2 ^ 24) (sid : Nat) (hsid : sid < 2 ^ 31) (w : Send.Win) (r : Resp) (s : Writes)
    (fs : Pairs) (n : Nat) (hv : view r.header = fs) (tab : List Entry) (hl : (fs.map (encodeField k tab)).flatten.length ≤ 1000) (hw : Takes s n) :
    send k tab sid w r s = some (H2.wireHeader (fs.map (encodeField k tab)).flatten.length 1 (if decide (r.plan.kind = .noContent) then 5 else 4) false sid ++
      (fs.map (encodeField k tab)).flatten ++ writeData sid w r.disk r.plan s) := by
  obtain ⟨fr, e1, e2⟩ := frames_written k hk sid hsid r s fs n hv tab hl hw
  unfold send
  rw [e1]
  simp only
  rw [e2]
  simp only [if_true]

theorem sent_fields (k : Conn) (hk : 16384 ≤ k.maxFrame ∧ k.maxFrame < 2 ^ 24) (sid : Nat) (hsid : sid < 2 ^ 31) (w : Send.Win) (r : Resp) (s : Writes)
    (fs : Pairs) (n : Nat) (hv : view r.header = fs) (hok : ∀ p ∈ fs, Hpack.okHeader p) (hsz : size fs ≤ 1000) (tab : List Entry) (hap : Apart tab fs)
    (hw : Takes s n) :
    ∃ block, send k tab sid w r s = some (H2.wireHeader block.length 1 (if decide (r.plan.kind = .noContent) then 5 else 4) false sid ++ block ++ writeData sid w r.disk r.plan s) ∧
      block.length ≤ 1000 ∧ ∀ limit t, ∃ rs tab, block = rs.flatMap Rep.wire ∧ rfcBlock limit t rs = some (fs, tab) := by
  have hblock := encodeFields_length k _ hok
  have hsent := sent_frame k hk sid hsid w r s _ n hv tab (by rw [encodeFields_apart k tab fs hap]; omega) hw
  rw [encodeFields_apart k tab fs hap] at hsent
  exact ⟨_, hsent, by omega, encodeFields_ok k _ hok⟩

theorem fields_length {fs : Pairs} (hok : ∀ p ∈ fs, Hpack.okHeader p) (hsz : size fs ≤ 960) {n : Nat} (hn : n < 2 ^ 24) :
    (∀ p ∈ fs ++ [(b!"content-length", Response.contLenStr n)], Hpack.okHeader p) ∧ size (fs ++ [(b!"content-length", Response.contLenStr n)]) ≤ 1000 := by
  constructor
  · intro p hp
    rcases List.mem_append.1 hp with hp | hp
    · exact hok p hp
    · rw [List.mem_singleton.1 hp]; exact contentLength_ok _ hn
  · have h1 := digits_short _ hn
    have h2 : size (fs ++ [(b!"content-length", Response.contLenStr n)]) = size fs + (14 + (Response.contLenStr n).length + 3) := by
      simp [size]
    omega

theorem sent_block (k : Conn) (hk : 16384 ≤ k.maxFrame ∧ k.maxFrame < 2 ^ 24) (sid : Nat) (hsid : sid < 2 ^ 31) (w : Send.Win) (r : Resp) (s : Writes)
    (fs : Pairs) (body : Bytes) (hv : view r.header = fs ++ [(b!"content-length", Response.contLenStr body.length)])
    (hok : ∀ p ∈ fs, Hpack.okHeader p) (hsz : size fs ≤ 960) (tab : List Entry) (hap : Apart tab fs) (hlen : body.length < 2 ^ 24) (hw : Takes s body.length) :
    ∃ block, send k tab sid w r s = some (H2.wireHeader block.length 1 (if decide (r.plan.kind = .noContent) then 5 else 4) false sid ++ block ++ writeData sid w r.disk r.plan s) ∧
      block.length ≤ 1000 ∧
      ∀ limit t, ∃ rs tab, block = rs.flatMap Rep.wire ∧
        rfcBlock limit t rs = some (fs ++ [(b!"content-length", Response.contLenStr body.length)], tab) :=
  sent_fields k hk sid hsid w r s _ body.length hv (fields_length hok hsz hlen).1 (fields_length hok hsz hlen).2 tab (apart_length hap _) hw

/-- The DATA frame of a response. -/
theorem data_written (sid : Nat) (hsid : sid < 2 ^ 31) (w : Send.Win) (ho : 0 < w.stream ∧ 0 < w.conn) (disk : Bytes) (p : H2B.Plan) (body : Bytes)
    (hr : H2B.Right true disk p body) (hb : body ≠ []) (hlen : body.length < 2 ^ 24) (s : Writes) (hw : Takes s body.length) :
    writeData sid w disk p s =
      H2.wireHeader body.length 0 (if (body.length : Int) < w.stream ∧ (body.length : Int) < w.conn then 1 else 0) false sid ++ body := by
  have hpos := List.length_pos_iff.2 hb
  have hwire : ∀ len ty fl, len < 2 ^ 24 → H2.frameHeader len ty fl false sid = H2.wireHeader len ty fl false sid :=
    fun len ty fl h => H2.C07_written_header_layout len ty fl sid false h hsid
  have hwl : ∀ len ty fl, (H2.wireHeader len ty fl false sid).length = 9 := fun _ _ _ => rfl
  unfold writeData Send.startData
  rw [hr.2.1, if_neg (by omega), if_neg (by omega)]
  simp only
  have hf : (if decide ((body.length : Int) < if w.stream > w.conn then w.conn else w.stream) = true then 1 else 0) =
      (if (body.length : Int) < w.stream ∧ (body.length : Int) < w.conn then 1 else 0) := by
    by_cases h : (body.length : Int) < w.stream ∧ (body.length : Int) < w.conn
    · rw [if_pos h, if_pos]
      rw [decide_eq_true_eq]; split <;> omega
    · rw [if_neg h, if_neg]
      rw [decide_eq_true_eq]; split <;> omega
  rw [hf, hwire _ _ _ hlen, dataHeader_written _ _ hw.dataHeader.1 (by rw [hwl]; exact hw.dataHeader.2)]
  simp only [if_true]
  rw [payload_written _ _ _ hr _ hw.data.1 hw.data.2]

theorem message_sent (k : Conn) (hk : 16384 ≤ k.maxFrame ∧ k.maxFrame < 2 ^ 24) (sid : Nat) (hsid : sid < 2 ^ 31) (w : Send.Win) (r : Resp) (s : Writes)
    (body : Bytes) (hr : H2B.Right true r.disk r.plan body) (hn : r.plan.kind = .noContent ↔ body = [])
    (hroom : body ≠ [] → (body.length : Int) < w.stream ∧ (body.length : Int) < w.conn ∧ body.length ≤ k.maxFrame) (hw : Takes s body.length)
    (block : Bytes) (hbl : block.length ≤ 1000) :
    message k.maxFrame sid (H2.wireHeader block.length 1 (if decide (r.plan.kind = .noContent) then 5 else 4) false sid ++ block ++ writeData sid w r.disk r.plan s) = some (block, body) := by
  by_cases hb : body = []
  · subst hb
    rw [decide_eq_true (hn.2 rfl)]
    simp only [if_true]
    have hz : r.plan.len = 0 := by rw [hr.2.1]; rfl
    have hd : writeData sid w r.disk r.plan s = [] := by
      unfold writeData Send.startData
      rw [hz]
      by_cases h : w.stream ≤ 0 ∨ w.conn ≤ 0
      · rw [if_pos h]
      · rw [if_neg h]; rfl
    rw [hd, List.append_nil]
    exact message_empty k.maxFrame sid hsid _ (by omega)
  · rw [decide_eq_false (fun h => hb (hn.1 h))]
    obtain ⟨r1, r2, r3⟩ := hroom hb
    simp only [Bool.false_eq_true, if_false]
    rw [data_written sid hsid w ⟨by omega, by omega⟩ _ _ _ hr hb (by omega) s hw, if_pos ⟨r1, r2⟩]
    exact message_content k.maxFrame sid hsid _ _ (by omega) r3

/-- The server and the socket are able to send a response with this content. -/
structure Sendable (k : Conn) (tab : List Entry) (r : Resp) (s : Writes) (body : Bytes) : Prop where
  block : ((view r.header).map (encodeField k tab)).flatten.length ≤ 1000
  right : H2B.Right true r.disk r.plan body
  length : body.length < 2 ^ 24
  takes : Takes s body.length

theorem sendable (k : Conn) (r : Resp) (s : Writes) (fs : Pairs) (body : Bytes) (hv : view r.header = fs) (hok : ∀ p ∈ fs, Hpack.okHeader p) (hsz : size fs ≤ 1000)
    (tab : List Entry) (hap : Apart tab fs) (hr : H2B.Right true r.disk r.plan body) (hlen : body.length < 2 ^ 24) (hw : Takes s body.length) : Sendable k tab r s body where
  block := by
    have hblock := encodeFields_length k _ hok
    rw [hv, encodeFields_apart k tab fs hap]
    omega
  right := hr
  length := hlen
  takes := hw

/-- What is sent for a response. -/
theorem sent_ok' (k : Conn) (hk : 16384 ≤ k.maxFrame ∧ k.maxFrame < 2 ^ 24) (sid : Nat) (hsid : sid < 2 ^ 31) (w : Send.Win) (r : Resp) (s : Writes)
    (fs : Pairs) (body : Bytes) (hv : view r.header = fs) (hok : ∀ p ∈ fs, Hpack.okHeader p) (hsz : size fs ≤ 1000) (tab : List Entry) (hap : Apart tab fs)
    (hr : H2B.Right true r.disk r.plan body) (hn : r.plan.kind = .noContent ↔ body = [])
    (hroom : body ≠ [] → (body.length : Int) < w.stream ∧ (body.length : Int) < w.conn ∧ body.length ≤ k.maxFrame) (hw : Takes s body.length) :
    ∃ bs, send k tab sid w r s = some bs ∧ Shows k.maxFrame sid bs fs body := by
  obtain ⟨block, e, hbl, hdec⟩ := sent_fields k hk sid hsid w r s fs _ hv hok hsz tab hap hw
  exact ⟨_, e, block, message_sent k hk sid hsid w r s body hr hn hroom hw block hbl, hdec⟩

theorem sent_ok (k : Conn) (hk : 16384 ≤ k.maxFrame ∧ k.maxFrame < 2 ^ 24) (sid : Nat) (hsid : sid < 2 ^ 31) (w : Send.Win) (r : Resp) (s : Writes)
    (fs : Pairs) (body : Bytes) (hv : view r.header = fs ++ [(b!"content-length", Response.contLenStr body.length)])
    (hok : ∀ p ∈ fs, Hpack.okHeader p) (hsz : size fs ≤ 960) (tab : List Entry) (hap : Apart tab fs) (hr : H2B.Right true r.disk r.plan body) (hn : r.plan.kind = .noContent ↔ body = [])
    (hroom : body ≠ [] → (body.length : Int) < w.stream ∧ (body.length : Int) < w.conn ∧ body.length ≤ k.maxFrame) (hw : Takes s body.length) :
    ∃ bs, send k tab sid w r s = some bs ∧ Shows k.maxFrame sid bs (fs ++ [(b!"content-length", Response.contLenStr body.length)]) body := by
  have hlen : body.length < 2 ^ 24 := by
    by_cases hb : body = []
    · simp [hb]
    · have := (hroom hb).2.2; omega
  exact sent_ok' k hk sid hsid w r s _ body hv (fields_length hok hsz hlen).1 (fields_length hok hsz hlen).2 tab (apart_length hap _) hr hn hroom hw

theorem date_ok (v : Bytes) (h : v.length < 127) : Hpack.okHeader (b!"date", v) := by
  have key1 : b!"date" ≠ b!"accept-language" ∧ b!"date" ≠ b!"if-none-matcho" ∧
    ∀ e ∈ Hpack.staticTable, e.1.isPrefixOf b!"date" = true → e.1 = b!"date" := by decide +kernel
  refine ⟨by simp, h, key1.1, key1.2.1, key1.2.2, ?_⟩
  have key : ∀ e ∈ Hpack.staticTable, e.1 = b!"date" → e.2 = none := by decide +kernel
  intro e he h1 w hw
  rw [key e he h1] at hw
  simp at hw

theorem serverHeader_ok (date : Bytes) : Inv (serverHeader date) ∧ view (serverHeader date) = [(b!"server", b!"fly"), (b!"date", date)] := by
  obtain ⟨i1, v1⟩ := PyBridge.addVerIfNo_ok PyBridge.inv_init (n := b!"server") ⟨by simp, by decide⟩ b!"fly"
  obtain ⟨i2, v2⟩ := PyBridge.addVerIfNo_ok i1 (n := b!"date") ⟨by simp, by decide⟩ date
  refine ⟨i2, ?_⟩
  unfold serverHeader
  rw [v2, v1, show view HList.init = [] from rfl]
  simp

theorem statusPseudo_ok (h : HList) (hi : Inv h) {code : Nat} {reason : Bytes} (hst : (code, reason) ∈ statuses) :
    ∃ h', PyBridge.statusPseudo (some code) h = some h' ∧ Inv h' ∧ view h' = (b!":status", Response.threeDigits code) :: view h := by
  have hcode : Response.codeOfType code = some code ∧ Response.decimal code = Response.threeDigits code := by
    have : ∀ p ∈ statuses, Response.codeOfType p.1 = some p.1 ∧ Response.decimal p.1 = Response.threeDigits p.1 := by decide +kernel
    exact this _ hst
  obtain ⟨i, v⟩ := Header.add_ok hi (n := b!":status") ⟨by simp, by decide⟩ (Response.decimal code) true
  refine ⟨_, by simp only [PyBridge.statusPseudo, hcode.1], i, ?_⟩
  rw [v, if_pos rfl, hcode.2]

theorem complete_server (date : Bytes) : Inv (PyBridge.completeV2 date (serverHeader date)) ∧
    view (PyBridge.completeV2 date (serverHeader date)) = [(b!"server", b!"fly"), (b!"date", date), (b!"content-type", b!"text/plain")] := by
  obtain ⟨i0, v0⟩ := serverHeader_ok date
  obtain ⟨i1, v1⟩ := PyBridge.addVerIfNo_ok i0 (n := b!"date") ⟨by simp, by decide⟩ date
  obtain ⟨i2, v2⟩ := PyBridge.addVerIfNo_ok i1 (n := b!"server") ⟨by simp, by decide⟩ b!"fly"
  obtain ⟨i3, v3⟩ := PyBridge.addVerIfNo_ok i2 (n := b!"content-type") ⟨by simp, by decide⟩ b!"text/plain"
  refine ⟨i3, ?_⟩
  unfold PyBridge.completeV2
  rw [v3, v2, v1, v0]
  simp

theorem complete_init (date : Bytes) : Inv (PyBridge.completeV2 date HList.init) ∧
    view (PyBridge.completeV2 date HList.init) = [(b!"date", date), (b!"server", b!"fly"), (b!"content-type", b!"text/plain")] := by
  obtain ⟨i1, v1⟩ := PyBridge.addVerIfNo_ok PyBridge.inv_init (n := b!"date") ⟨by simp, by decide⟩ date
  obtain ⟨i2, v2⟩ := PyBridge.addVerIfNo_ok i1 (n := b!"server") ⟨by simp, by decide⟩ b!"fly"
  obtain ⟨i3, v3⟩ := PyBridge.addVerIfNo_ok i2 (n := b!"content-type") ⟨by simp, by decide⟩ b!"text/plain"
  refine ⟨i3, ?_⟩
  unfold PyBridge.completeV2
  rw [v3, v2, v1, show view HList.init = [] from rfl]
  simp

/-- The response is as it should be, but for sending it. -/
def Made (r : Resp) (fs : Pairs) (body : Bytes) : Prop :=
  view r.header = fs ++ [(b!"content-length", Response.contLenStr body.length)] ∧ H2B.Right true r.disk r.plan body ∧ (r.plan.kind = .noContent ↔ body = [])

theorem coded_nil {c : Cfg} (hth : 0 < c.threshold) (hcm : ∀ k b, c.compress k b ≠ []) (body : Bytes) : coded c body = [] ↔ body = [] := by
  unfold coded
  cases h : coding c body with
  | none => exact Iff.rfl
  | some k =>
    simp only
    split
    · exact Iff.rfl
    · constructor
      · intro e; exact absurd e (hcm k body)
      · rintro rfl
        unfold coding at h
        rw [if_neg (by simp; omega)] at h
        simp at h

theorem finish_empty (c : Cfg) {code : Nat} {reason : Bytes} (hst : (code, reason) ∈ statuses) (h0 : HList) (hi : Inv h0)
    (hcl : b!"content-length" ∉ (view h0).map (·.1)) (hth : 0 < c.threshold) (hd : c.dflt code = none) :
    ∃ r, finish c (some code) h0 none = some r ∧ Made r ((b!":status", Response.threeDigits code) :: view h0) [] := by
  obtain ⟨h, e, i, v⟩ := statusPseudo_ok h0 hi hst
  have hc : coding c [] = none := by unfold coding; rw [if_neg (by simp; omega)]
  obtain ⟨p, h1, h2, h3, h4⟩ := prepare_body { c with overflow := fun _ => false } [] hth (fun _ => rfl)
  have hcd : coded { c with overflow := fun _ => false } [] = [] := by unfold coded; rw [show coding { c with overflow := fun _ => false } [] = none from hc]
  have h1' : H2B.prepare c.compress c.overflow c.threshold c.acc false none none none = some (.ready p) := by
    have h0 : ¬ c.threshold ≤ 0 := by omega
    rw [← h1]
    simp [H2B.prepare, H2B.source, h0]
  rw [hcd] at h3
  obtain ⟨h'', e2, _, hv''⟩ := PyBridge.addModify_ok i (n := b!"content-length") ⟨by simp, by decide⟩ (Response.contLenStr p.contentLength)
  refine ⟨⟨h'', p, []⟩, ?_, ?_, h3, h4⟩
  · unfold finish
    simp only [e, Option.getD_some, hd]
    rw [if_neg (by simp)]
    have hpc : p.coding = none := by rw [h2]; exact hc
    simp only [h1', hpc, addCoding, e2]
  · show view h'' = _
    rw [hv'', v, h3.1, PyBridge.setFirst_new]
    rw [List.map_cons, List.mem_cons]
    rintro (hx | hx)
    · exact absurd hx (by simp)
    · exact hcl hx

theorem lower_eq (n : Bytes) : PyBridge.lowerName n = Trip.lowerCase n := rfl

theorem respond_made (c : Cfg) (hth : 0 < c.threshold) (hcm : ∀ k b, c.compress k b ≠ []) (a : App) (q : Ask) (o : Outcome) (hm : Makes a q c o)
    (ret : PyBridge.Ret) (hn : o ≠ .notFound) (hret : ∀ r, Returns a q r → r = ret) (fs : Pairs) (body : Bytes)
    (hs : Shown c o = some (fs, body)) : ∃ r, respond c false ret = some r ∧ Made r fs body := by
  cases o with
  | response code reason hs' ct body' =>
    obtain ⟨h1, hst, hf, hct, hmax, hover, hcl, hd⟩ := hm
    have := hret _ h1
    subst this
    simp only [Shown, Option.some.injEq, Prod.mk.injEq] at hs
    obtain ⟨rfl, rfl⟩ := hs
    obtain ⟨hh, e94, v94⟩ := PyBridge.C94_http2_fields_partial c.date c.maxLen hst hf hct hmax
    have ht := (PyBridge.status_ok hst).1
    obtain ⟨h, e, i, v⟩ := PyBridge.addHeadersV2_ok hs' HList.init PyBridge.inv_init hf
    have hconv : PyBridge.convert true false c.maxLen (.response (build code hs' body' ct).obj) =
        .reply (some code) (Header.addVerIfNo h b!"content-type" ct) (if body' = [] then none else some body') := by
      rw [PyBridge.build_eq]
      simp only [PyBridge.convert, PyBridge.PyResponse.obj, Bool.false_eq_true, if_false, PyBridge.takeBody_ok hmax, e, PyBridge.mime_ok hct,
        PyBridge.addContentType, if_true, ht]
    rw [PyBridge.headersV2, hconv] at e94
    simp only at e94
    obtain ⟨i1, _⟩ := PyBridge.addVerIfNo_ok i (n := b!"content-type") ⟨by simp, by decide⟩ ct
    have i4 : Inv (PyBridge.completeV2 c.date (Header.addVerIfNo h b!"content-type" ct)) := by
      obtain ⟨i2, _⟩ := PyBridge.addVerIfNo_ok i1 (n := b!"date") ⟨by simp, by decide⟩ c.date
      obtain ⟨i3, _⟩ := PyBridge.addVerIfNo_ok i2 (n := b!"server") ⟨by simp, by decide⟩ b!"fly"
      exact (PyBridge.addVerIfNo_ok i3 (n := b!"content-type") ⟨by simp, by decide⟩ b!"text/plain").1
    obtain ⟨h5, e5, i5, _⟩ := statusPseudo_ok _ i4 hst
    rw [e5] at e94
    simp only [Option.map_some, Option.some.injEq] at e94
    subst e94
    obtain ⟨r, r1, r2, r3, r4⟩ := finish_ok c code _ h5 body' e5 i5 (by
      rw [v94]
      simp only [List.cons_append, List.map_cons, List.mem_cons, not_or, List.map_append, List.mem_append]
      refine ⟨by simp, ?_, ?_⟩
      · simpa [List.map_map, Function.comp_def, lower_eq] using hcl
      · intro hx
        obtain ⟨p, hp, e⟩ := List.mem_map.1 hx
        have := (List.mem_filter.1 hp).1
        simp only [List.mem_cons, List.not_mem_nil, or_false] at this
        rcases this with rfl | rfl | rfl
        · exact absurd e (by simp)
        · exact absurd e (by simp)
        · exact absurd e (by simp)) hth hover hd
    refine ⟨r, ?_, ?_, r3, r4.trans (coded_nil hth hcm body').symm⟩
    · unfold respond
      rw [hconv]
      exact r1
    · rw [r2, v94]
      simp only [lower_eq, List.cons_append, List.append_assoc]
  | value v body' =>
    obtain ⟨h1, hpl, hmax, hover, hd⟩ := hm
    have := hret _ h1
    subst this
    simp only [Shown, Option.some.injEq, Prod.mk.injEq] at hs
    obtain ⟨rfl, rfl⟩ := hs
    have hconv : PyBridge.convert true false c.maxLen (.value v) = .reply (some 200) HList.init (if body' = [] then none else some body') := by
      cases v with
      | str s =>
        simp only [PyBridge.plain, Option.some.injEq] at hpl; subst hpl
        simp only [PyBridge.convert, Bool.false_eq_true, if_false, PyBridge.takeBody_ok hmax]
      | bytes s =>
        simp only [PyBridge.plain, Option.some.injEq] at hpl; subst hpl
        simp only [PyBridge.convert, PyBridge.takeBody_ok hmax]
      | none =>
        simp only [PyBridge.plain, Option.some.injEq] at hpl; subst hpl
        rfl
      | badStr => simp [PyBridge.plain] at hpl
      | other => simp [PyBridge.plain] at hpl
    obtain ⟨i4, v4⟩ := complete_init c.date
    obtain ⟨h5, e5, i5, v5⟩ := statusPseudo_ok _ i4 (code := 200) (reason := b!"OK") (by decide +kernel)
    obtain ⟨r, r1, r2, r3, r4⟩ := finish_ok c 200 _ h5 body' e5 i5 (by rw [v5, v4]; simp) hth hover hd
    refine ⟨r, ?_, ?_, r3, r4.trans (coded_nil hth hcm body').symm⟩
    · unfold respond
      rw [hconv]
      exact r1
    · rw [r2, v5, v4, show Response.threeDigits 200 = b!"200" from by decide]
  | failed =>
    obtain ⟨h1, hd⟩ := hm
    have := hret _ h1
    subst this
    simp only [Shown, Option.some.injEq, Prod.mk.injEq] at hs
    obtain ⟨rfl, rfl⟩ := hs
    obtain ⟨i4, v4⟩ := complete_server c.date
    obtain ⟨r, r1, r2⟩ := finish_empty c (code := 500) (reason := b!"Internal Server Error") (by decide +kernel) _ i4 (by rw [v4]; simp) hth hd
    refine ⟨r, r1, ?_⟩
    rw [v4, show Response.threeDigits 500 = b!"500" from by decide] at r2
    exact r2
  | tooLong ret' body' =>
    obtain ⟨h1, hmax, hne, hd, hr⟩ := hm
    have := hret _ h1
    subst this
    simp only [Shown, Option.some.injEq, Prod.mk.injEq] at hs
    obtain ⟨rfl, rfl⟩ := hs
    have htake : PyBridge.takeBody c.maxLen body' = none := by
      unfold PyBridge.takeBody
      rw [if_pos (List.length_pos_iff.2 hne), if_pos hmax]
    have hconv : PyBridge.convert true false c.maxLen ret' = .tooLarge := by
      rcases hr with rfl | rfl | ⟨o, ho, rfl⟩
      · simp only [PyBridge.convert, Bool.false_eq_true, if_false, htake]
      · simp only [PyBridge.convert, htake]
      · simp only [PyBridge.convert, Bool.false_eq_true, if_false, ho, htake]
    obtain ⟨i4, v4⟩ := complete_server c.date
    obtain ⟨r, r1, r2⟩ := finish_empty c (code := 413) (reason := b!"Payload Too Large") (by decide +kernel) _ i4 (by rw [v4]; simp) hth hd
    refine ⟨r, ?_, ?_⟩
    · unfold respond
      rw [hconv]
      exact r1
    · rw [v4, show Response.threeDigits 413 = b!"413" from by decide] at r2
      exact r2
  | codedTooLong _ _ => exact absurd hm (by simp [Makes])
  | notFound => exact absurd rfl hn

/-! ## Connections that break -/

theorem frameRun_begins (hdr payload : Bytes) : ∀ (ss : List Sys), (∀ s ∈ ss, s ≠ .block) →
    (∀ total, (Send.frameRun hdr payload true total ss).1 <+: payload.drop total ∧
      ((Send.frameRun hdr payload true total ss).2 = true → (Send.frameRun hdr payload true total ss).1 = payload.drop total)) ∧
    (∀ total, total < hdr.length → (Send.frameRun hdr payload false total ss).1 <+: hdr.drop total ++ payload ∧
      ((Send.frameRun hdr payload false total ss).2 = true → (Send.frameRun hdr payload false total ss).1 = hdr.drop total ++ payload))
  | [], _ => by
    constructor
    · intro total
      refine ⟨by simp [Send.frameRun], fun h => ?_⟩
      simp only [Send.frameRun, Bool.true_and, decide_eq_true_eq] at h ⊢
      exact (List.drop_eq_nil_of_le h).symm
    · intro total _
      exact ⟨by simp [Send.frameRun], fun h => by simp [Send.frameRun] at h⟩
  | s :: ss, hb => by
    obtain ⟨ih1, ih2⟩ := frameRun_begins hdr payload ss fun s hs => hb s (by simp [hs])
    have hs := hb s (by simp)
    have cut : ∀ (l : Bytes) (t n : Nat), l.drop t = (l.drop t).take n ++ l.drop (t + ((l.drop t).take n).length) := by
      intro l t n
      conv => lhs; rw [← List.take_append_drop n (l.drop t)]
      congr 1
      rw [List.drop_drop, List.length_take, List.length_drop]
      by_cases h : n ≤ l.length - t
      · rw [Nat.min_eq_left h]
      · rw [List.drop_eq_nil_of_le (by omega), List.drop_eq_nil_of_le (by omega)]
    constructor
    · intro total
      unfold Send.frameRun
      simp only [Bool.true_and]
      by_cases hd : payload.length ≤ total
      · rw [if_pos (by simpa using hd)]
        exact ⟨List.nil_prefix, fun _ => (List.drop_eq_nil_of_le hd).symm⟩
      · rw [if_neg (by simpa using hd)]
        cases s with
        | block => exact absurd rfl hs
        | intr => exact ih1 total
        | fail => exact ⟨List.nil_prefix, fun h => by simp at h⟩
        | sent n =>
          simp only [if_true]
          obtain ⟨h1, h2⟩ := ih1 (total + ((payload.drop total).take n).length)
          rw [cut payload total n]
          rw [← cut payload total n]
          refine ⟨?_, fun h => ?_⟩
          · conv => rhs; rw [cut payload total n]
            exact (List.prefix_append_right_inj _).2 h1
          · conv => rhs; rw [cut payload total n]
            rw [h2 h]
    · intro total ht
      unfold Send.frameRun
      simp only [Bool.false_and, Bool.false_eq_true, if_false]
      cases s with
      | block => exact absurd rfl hs
      | intr => exact ih2 total ht
      | fail => exact ⟨List.nil_prefix, fun h => by simp at h⟩
      | sent n =>
        simp only
        by_cases hd : hdr.length ≤ total + ((hdr.drop total).take n).length
        · rw [if_pos hd]
          obtain ⟨h1, h2⟩ := ih1 0
          have e : hdr.drop total ++ payload = (hdr.drop total).take n ++ payload := by
            conv => lhs; rw [cut hdr total n, List.drop_eq_nil_of_le hd, List.append_nil]
          rw [e]
          refine ⟨(List.prefix_append_right_inj _).2 (by simpa using h1), fun h => ?_⟩
          rw [h2 h]; simp
        · rw [if_neg hd]
          obtain ⟨h1, h2⟩ := ih2 _ (by omega : total + ((hdr.drop total).take n).length < hdr.length)
          have e : hdr.drop total ++ payload = (hdr.drop total).take n ++ (hdr.drop (total + ((hdr.drop total).take n).length) ++ payload) := by
            rw [← List.append_assoc, ← cut hdr total n]
          rw [e]
          exact ⟨(List.prefix_append_right_inj _).2 h1, fun h => by rw [h2 h]⟩

theorem dataHeaderRun_begins (hdr : Bytes) : ∀ (ss : List Sys), (∀ s ∈ ss, s ≠ .block) → ∀ total,
    (Send.dataHeaderRun true hdr total ss).1 <+: hdr.drop total ∧
      ((Send.dataHeaderRun true hdr total ss).2 = true → (Send.dataHeaderRun true hdr total ss).1 = hdr.drop total)
  | [], _ => by
    intro total
    refine ⟨by simp [Send.dataHeaderRun], fun h => ?_⟩
    simp only [Send.dataHeaderRun, decide_eq_true_eq] at h ⊢
    exact (List.drop_eq_nil_of_le h).symm
  | s :: ss, hb => by
    have ih := dataHeaderRun_begins hdr ss fun s hs => hb s (by simp [hs])
    have hs := hb s (by simp)
    have cut : ∀ (l : Bytes) (t n : Nat), l.drop t = (l.drop t).take n ++ l.drop (t + ((l.drop t).take n).length) := by
      intro l t n
      conv => lhs; rw [← List.take_append_drop n (l.drop t)]
      congr 1
      rw [List.drop_drop, List.length_take, List.length_drop]
      by_cases h : n ≤ l.length - t
      · rw [Nat.min_eq_left h]
      · rw [List.drop_eq_nil_of_le (by omega), List.drop_eq_nil_of_le (by omega)]
    intro total
    unfold Send.dataHeaderRun
    by_cases hd : hdr.length ≤ total
    · rw [if_pos hd]
      exact ⟨List.nil_prefix, fun _ => (List.drop_eq_nil_of_le hd).symm⟩
    · rw [if_neg hd]
      cases s with
      | block => exact absurd rfl hs
      | intr => exact ⟨List.nil_prefix, fun h => by simp at h⟩
      | fail => exact ⟨List.nil_prefix, fun h => by simp at h⟩
      | sent n =>
        simp only [if_true]
        obtain ⟨h1, h2⟩ := ih (total + ((hdr.drop total).take n).length)
        refine ⟨?_, fun h => ?_⟩
        · conv => rhs; rw [cut hdr total n]
          exact (List.prefix_append_right_inj _).2 h1
        · conv => rhs; rw [cut hdr total n]
          rw [h2 h]

theorem writeFrames_begins (sid : Nat) : ∀ (fs : List Send.OutFrame) (ss : List (List Sys)), (∀ l ∈ ss, ∀ s ∈ l, s ≠ .block) →
    let all := (fs.map fun f => H2.frameHeader f.payload.length f.type f.flags false sid ++ f.payload).flatten
    (writeFrames sid fs ss).1 <+: all ∧ ((writeFrames sid fs ss).2 = true → (writeFrames sid fs ss).1 = all)
  | [], ss, _ => by simp [writeFrames]
  | f :: fs, ss, h => by
    have ih := writeFrames_begins sid fs ss.tail fun l hl => h l (List.mem_of_mem_tail hl)
    have hl : (H2.frameHeader f.payload.length f.type f.flags false sid).length = 9 := rfl
    obtain ⟨h1, h2⟩ := (frameRun_begins (H2.frameHeader f.payload.length f.type f.flags false sid) f.payload (ss.headD []) (by
      cases ss with
      | nil => simp
      | cons l ss => exact h l (by simp))).2 0 (by omega)
    rw [List.drop_zero] at h1 h2
    simp only at ih ⊢
    unfold writeFrames
    simp only
    split
    · rename_i he
      rw [h2 he]
      simp only [List.map_cons, List.flatten_cons]
      exact ⟨(List.prefix_append_right_inj _).2 ih.1, fun e => by rw [ih.2 e]⟩
    · refine ⟨?_, fun e => by simp at e⟩
      simp only [List.map_cons, List.flatten_cons]
      exact h1.trans (List.prefix_append _ _)

end Fly.H2Trip
