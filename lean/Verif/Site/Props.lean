import Verif.Site.Lemmas

/-! # C185–C188: mounted files over HTTP/1.1 -/

namespace Fly.Site
open ReqEvent (Msg Rcv Env Reply St)
open Req (Method)
open Header (Pairs view HList Inv setFirst)
open PyBridge (Cfg Reads)
open Response (Coding SendBuf Clean)
open Trip (Seen CfgOk Unserved Readable Each client WrittenPath Serves)

/-! ## C185: the whole way of a request to a site -/

/-- The bytes written for a proper exchange. -/
def Exchange.Sent (s : Site) (mem : Nat → Nat) (x : Exchange) (bs : Bytes) : Prop :=
  s.bytes x.now mem (Keep.replyTo (asked s.full.env) x.msg) (Keep.replyTo s.full.env x.msg) = some bs

theorem exchange_read (s : Site) (hr : ∀ x ∈ s.app.routes, WrittenPath x.1) (mem : Nat → Nat) (x : Exchange) (hp : Proper s mem x) :
    ∃ bs o, x.Sent s mem bs ∧ bs.length ≤ x.room ∧ Readable bs o ∧ Shown s x o ∧ (x.out.Stays → Keep.Kept s.full.env s.full.keeps x.msg) := by
  obtain ⟨msg, pieces, now, blocked, room, out⟩ := x
  obtain ⟨b, hq⟩ := asked_reply s.full.env msg
  have hans := Keep.answer_within s.full.env msg hp.within
  have hfit : ∀ bs, s.bytes now mem (.handler 0 msg.line msg.header b) (Keep.replyTo s.full.env msg) = some bs → bs.length ≤ room :=
    fun bs h => hp.fitting b bs _ hans h
  have hsent : ∀ bs, s.bytes now mem (.handler 0 msg.line msg.header b) (Keep.replyTo s.full.env msg) = some bs →
      Exchange.Sent s mem ⟨msg, pieces, now, blocked, room, out⟩ bs := by
    intro bs h
    show s.bytes now mem (Keep.replyTo (asked s.full.env) msg) (Keep.replyTo s.full.env msg) = some bs
    rw [hq]; exact h
  have hkept : (∀ i l h b, Keep.replyTo s.full.env msg ≠ .handler i l h b) → Keep.Kept s.full.env s.full.keeps msg := by
    intro hne i l h b ha
    rw [hans] at ha
    injection ha with ha
    exact absurd ha (hne i l h b)
  have hm := hp.makes
  cases out with
  | app o =>
    obtain ⟨hhead, hm⟩ := hm
    -- the application's own response, as in Verif.Trip, with room for it
    have : ∃ buf o', s.full.bytes (Keep.replyTo s.full.env msg) = some buf ∧ Readable buf.bytes o' ∧ Trip.Shown s.full ⟨msg, pieces, blocked, room, o⟩ o' ∧
        (o.Stays → Keep.Kept s.full.env s.full.keeps msg) := by
      obtain ⟨buf, o', e, h1, h2, h3, _⟩ := Trip.exchange_read s.full hr ⟨msg, pieces, blocked, room, o⟩
        ⟨hp.within, hp.arrives, hhead, hm, by
          intro r buf ha hb
          rw [hans] at ha
          injection ha with ha
          subst ha
          exact hfit _ (bytes_app s now mem _ _ buf hb)⟩
      exact ⟨buf, o', e, h1, h2, h3⟩
    obtain ⟨buf, o', e, h1, h2, h3⟩ := this
    have hb := bytes_app s now mem (.handler 0 msg.line msg.header b) _ buf e
    exact ⟨buf.bytes, o', hsent _ hb, hfit _ hb, h1, h2, h3⟩
  | file f =>
    obtain ⟨h1, h2, h3, h4, h5, h6, h7, h8⟩ := hm
    have h2 : msg.line.method = .get := h2
    have hrep : Keep.replyTo s.full.env msg = .file := by
      simp [unserved_file s hr msg h1 h3, h2, h4]
    obtain ⟨bs, len, announced, body, e, g1, g2, g3⟩ := file_read (s.app.cfg msg.header) h6 f h5 (now msg.line.uri) h7 h8 mem
    have hb : s.bytes now mem (.handler 0 msg.line msg.header b) (Keep.replyTo s.full.env msg) = some bs := by
      rw [hrep]
      simp only [Site.bytes, h3, e]
    exact ⟨bs, _, hsent _ hb, hfit _ hb, g3, ⟨len, announced, body, g1, g2, rfl⟩, fun _ => hkept (by rw [hrep]; simp)⟩
  | directory =>
    obtain ⟨h1, h2, ⟨f, h3, h4⟩, h5, h6⟩ := hm
    have h2 : msg.line.method = .get := h2
    have hrep : Keep.replyTo s.full.env msg = .status 404 := by
      simp [unserved_file s hr msg h1 h3, h2, h4]
    obtain ⟨h, buf, e1, e2, hrd⟩ := Trip.notFound_read s.app.cfg0 h5 h6
    have hb : s.bytes now mem (.handler 0 msg.line msg.header b) (Keep.replyTo s.full.env msg) = some buf.bytes := by
      apply bytes_app
      rw [hrep]
      have e1 : PyBridge.serverHeader s.full.cfg0.date b!"keep-alive" = some h := e1
      have e2 : PyBridge.send s.full.cfg0 (some 404) h none = some buf := e2
      unfold Trip.App.bytes
      simp only [true_or, if_true, e1, e2]
    exact ⟨buf.bytes, _, hsent _ hb, hfit _ hb, hrd, rfl, fun _ => hkept (by rw [hrep]; simp)⟩
  | notAllowed =>
    obtain ⟨h1, h2, ⟨f, h3⟩, h5, h6⟩ := hm
    have hrep : Keep.replyTo s.full.env msg = .status 405 := by
      rw [unserved_file s hr msg h1 h3, if_pos h2]
    obtain ⟨h, buf, e1, e2, hrd⟩ := notAllowed_read s.app.cfg0 h5 h6 s.app.table msg.line.uri
    have hb : s.bytes now mem (.handler 0 msg.line msg.header b) (Keep.replyTo s.full.env msg) = some buf.bytes := by
      rw [hrep]
      simp only [Site.bytes, e1, e2, Option.map_some]
    refine ⟨buf.bytes, _, hsent _ hb, hfit _ hb, hrd, ⟨_, ?_, rfl⟩, fun _ => hkept (by rw [hrep]; simp)⟩
    rw [listed_join _ (by simp [validMethods])]
    simp [validMethods, Req.methodName]

theorem writeAll_each (s : Site) (mem : Nat → Nat) (xs : List Exchange) (bufs : List Bytes) (h : Each (fun x bs => x.Sent s mem bs ∧ bs.length ≤ x.room) xs bufs) :
    writeAll s mem ((xs.map fun x => Keep.replyTo (asked s.full.env) x.msg).zip (xs.map fun x => Keep.replyTo s.full.env x.msg)) (xs.map (·.now)) (xs.map (·.writes)) =
      bufs.flatten := by
  induction h with
  | nil => rfl
  | @cons x bs l m hx _ ih =>
    obtain ⟨e, hl⟩ := hx
    have hw := Send.C16_h1_exactly_once_partial bs x.blocked x.room hl []
    unfold Exchange.Sent at e
    simp only [List.map_cons, List.zip_cons_cons, writeAll, List.headD_cons, e, Exchange.writes, hw, List.tail_cons, List.flatten_cons]
    rw [← ih]
    rfl

theorem each_read (s : Site) (hr : ∀ x ∈ s.app.routes, WrittenPath x.1) (mem : Nat → Nat) : ∀ (xs : List Exchange), (∀ x ∈ xs, Proper s mem x) →
    ∃ bufs os, Each (fun x bs => x.Sent s mem bs ∧ bs.length ≤ x.room) xs bufs ∧ Each Readable bufs os ∧ Each (Shown s) xs os
  | [], _ => ⟨[], [], .nil, .nil, .nil⟩
  | x :: xs, h => by
    obtain ⟨bs, o, e, h0, h1, h2, _⟩ := exchange_read s hr mem x (h x (by simp))
    obtain ⟨bufs, os, i1, i2, i3⟩ := each_read s hr mem xs fun y hy => h y (by simp [hy])
    exact ⟨bs :: bufs, o :: os, .cons ⟨e, h0⟩ i1, .cons h1 i2, .cons h2 i3⟩

theorem sessions (s : Site) (xs : List Exchange) (h : ∀ x ∈ xs, Keep.Within s.full.env x.msg ∧ Keep.Kept s.full.env s.full.keeps x.msg ∧ Keep.Arrives x.msg x.pieces) :
    Keep.session s.full.env s.full.keeps St.init (xs.map (·.pieces)) = (xs.map (fun x => Keep.replyTo s.full.env x.msg), .open St.init) ∧
    (Keep.session (asked s.full.env) (fun _ => true) St.init (xs.map (·.pieces))).1 = xs.map (fun x => Keep.replyTo (asked s.full.env) x.msg) := by
  have hp : (xs.map fun x => (x.msg, x.pieces)).map (·.2) ++ [] = xs.map (·.pieces) := by simp
  constructor
  · have hses := Trip.session_append s.full.env s.full.keeps (xs.map fun x => (x.msg, x.pieces)) (by
      intro p hp
      obtain ⟨x, hx, rfl⟩ := List.mem_map.1 hp
      exact h x hx) []
    rw [hp] at hses
    rw [hses]
    simp [Keep.session]
  · have hses := Trip.session_append (asked s.full.env) (fun _ => true) (xs.map fun x => (x.msg, x.pieces)) (by
      intro p hp
      obtain ⟨x, hx, rfl⟩ := List.mem_map.1 hp
      exact ⟨within_asked (h x hx).1, fun _ _ _ _ _ => rfl, (h x hx).2.2⟩) []
    rw [hp] at hses
    rw [hses]
    simp [Keep.session]

/-- **C185** *(partial)*.  A client sends any number of requests over a connection, for functions, files and directories in any order, each when it has the response
to the one before, each in any pieces.  It reads, for all of them and in order: what the application gives; the whole file, or an announced coding of it that it
accepts, with its length, hash, time and type; 404 for a directory; 405 for another method than GET.  Then the connection is open.  Whatever is left in the memory
of the server, none of it is sent.  Missing: files that changed (C186), files for which `identity` was chosen or whose encoded form is not accepted (see the
refutations), and what C172 misses. -/
theorem C185_site_round_trips_partial (s : Site) (hr : ∀ x ∈ s.app.routes, WrittenPath x.1) (mem : Nat → Nat) (xs : List Exchange) (h : ∀ x ∈ xs, Proper s mem x)
    (hs : ∀ x ∈ xs, x.out.Stays) :
    ∃ os, client (received s mem (xs.map (·.pieces)) (xs.map (·.now)) (xs.map (·.writes))) = some os ∧ Each (Shown s) xs os ∧
      after s (xs.map (·.pieces)) = .open St.init := by
  obtain ⟨bufs, os, h1, h2, h3⟩ := each_read s hr mem xs h
  obtain ⟨s1, s2⟩ := sessions s xs fun x hx => by
    obtain ⟨_, _, _, _, _, _, hk⟩ := exchange_read s hr mem x (h x hx)
    exact ⟨(h x hx).within, hk (hs x hx), (h x hx).arrives⟩
  refine ⟨os, ?_, h3, ?_⟩
  · unfold received
    rw [s1, s2, writeAll_each s mem xs bufs h1]
    exact Trip.client_all bufs os h2
  · unfold after
    rw [s1]

/-- What a single GET request for a file brings. -/
theorem one_file (s : Site) (hr : ∀ x ∈ s.app.routes, WrittenPath x.1) (mem : Nat → Nat) (m : Msg) (pieces : List Rcv) (now : Bytes → Bytes) (ss : List (List Send.Sys))
    (hw : Keep.Within s.full.env m) (ha : Keep.Arrives m pieces) (hu : Unserved s.full m.line.uri m.line.method) (hg : m.line.method = .get) {f : Served}
    (hf : s.files m.line.uri = some f) (hd : f.dir = false) :
    received s mem [pieces] [now] ss =
      match (sendFile (s.app.cfg m.header) f (now m.line.uri)).map (onWire mem) with
      | none => []
      | some bs => (Send.h1Run bs 0 (ss.headD [])).1 := by
  have hrep : Keep.replyTo s.full.env m = .file := by
    simp [unserved_file s hr m hu hf, hg, hd]
  obtain ⟨b, hq⟩ := asked_reply s.full.env m
  have hk : Keep.Kept s.full.env s.full.keeps m := by
    intro i l h b ha'
    rw [Keep.answer_within _ _ hw, hrep] at ha'
    simp at ha'
  obtain ⟨s1, s2⟩ := sessions s [⟨m, pieces, now, 0, 0, .directory⟩] (by
    intro x hx
    rcases List.mem_singleton.1 hx with rfl
    exact ⟨hw, hk, ha⟩)
  simp only [List.map_cons, List.map_nil] at s1 s2
  unfold received
  rw [s1, s2, hrep, hq]
  simp only [List.zip_cons_cons, List.zip_nil_right, writeAll, List.headD_cons, Site.bytes, hf]
  cases (sendFile (s.app.cfg m.header) f (now m.line.uri)).map (onWire mem) with
  | none => rfl
  | some bs =>
    simp only
    rcases hx : Send.h1Run bs 0 (ss.headD []) with ⟨out, ok⟩
    cases ok
    · rfl
    · exact List.append_nil _

/-- **C185 refuted (identity).**  A GET request for a mounted file at least as long as the threshold, of a client for which `identity` was chosen (`Accept-Encoding: identity`
and no form encoded in advance that it accepts): the response is made from a null pointer.  The client gets nothing, whatever the file contains. -/
theorem C185_identity_refuted (s : Site) (hr : ∀ x ∈ s.app.routes, WrittenPath x.1) (mem : Nat → Nat) (m : Msg) (pieces : List Rcv) (now : Bytes → Bytes)
    (ss : List (List Send.Sys)) (hw : Keep.Within s.full.env m) (ha : Keep.Arrives m pieces) (hu : Unserved s.full m.line.uri m.line.method)
    (hg : m.line.method = .get) {f : Served} (hf : s.files m.line.uri = some f) (hd : f.dir = false) (hpre : ∀ k e, f.pre = some (k, e) → (s.app.cfg m.header).acc.matching k = false)
    (hlen : (s.app.cfg m.header).threshold ≤ f.size) (hid : (s.app.cfg m.header).acc.decided = some 0) :
    received s mem [pieces] [now] ss = [] := by
  rw [one_file s hr mem m pieces now ss hw ha hu hg hf hd]
  have hch : chosen (s.app.cfg m.header) f = some 0 := by unfold chosen; rw [if_pos hlen, hid]
  obtain ⟨h, e, i, _⟩ := fileHeader_ok (s.app.cfg m.header) f
  obtain ⟨i1, _⟩ := PyBridge.append_ok i (n := b!"Content-Encoding") ⟨by simp, by decide⟩ ((s.app.cfg m.header).encName 0)
  obtain ⟨h', e', _, _⟩ := PyBridge.setLen_ok i1 f.size
  have e' : Response.setContentLength (Response.addContentEncoding (s.app.cfg m.header).encName h 0) f.size = some h' := e'
  have hp : prepareFile (s.app.cfg m.header) f (now m.line.uri) h = some (.ready (.body none) f.size h') := by
    unfold prepareFile
    cases hpr : f.pre with
    | none => simp only [hch, e', Option.map_some, Response.identity, if_true]
    | some q => obtain ⟨k, enc⟩ := q; simp only [hpre k enc hpr, hch, e', Option.map_some, Response.identity, if_true, Bool.false_eq_true, if_false]
  have : sendFile (s.app.cfg m.header) f (now m.line.uri) = none := by
    unfold sendFile
    rw [e]
    simp only [hp, Response.serialize, Response.setSendPtr, ok_line]
  rw [this]
  rfl

/-- The send buffer for fewer bytes of content than announced. -/
theorem layout (h : HList) (hi : Inv h) (n count : Nat) (b : Response.Body) (bs : Bytes) (hb : b = .encoded bs ∨ ∃ c, b = .file c ∧ bs = c.take count) (hn : bs.length ≤ n) :
    Response.setSendPtr .v1_1 200 h n count b =
      some ⟨(Response.wire (b!"HTTP/1.1 200 OK" ++ [13, 10]) (view h) bs).length + (n - bs.length), Response.wire (b!"HTTP/1.1 200 OK" ++ [13, 10]) (view h) bs⟩ := by
  have base := Response.C17_serialized_layout .v1_1 200 _ ok_line h hi .noContent [] rfl 0 (Nat.le_refl _)
  unfold Response.setSendPtr at base ⊢
  rw [ok_line] at base ⊢
  simp only [Option.some.injEq, SendBuf.mk.injEq] at base ⊢
  obtain ⟨b1, b2⟩ := base
  have hw : Response.wire (b!"HTTP/1.1 200 OK" ++ [13, 10]) (view h) bs = Response.wire (b!"HTTP/1.1 200 OK" ++ [13, 10]) (view h) [] ++ bs := by
    unfold Response.wire; rw [List.append_nil]
  rw [hw, b2]
  generalize Response.wire (b!"HTTP/1.1 200 OK" ++ [13, 10]) (view h) [] = W at b1 b2 ⊢
  rw [List.length_nil, Nat.add_zero] at b1
  rw [b1, show (W ++ bs).length = W.length + bs.length from List.length_append]
  rcases hb with rfl | ⟨c, rfl, rfl⟩
  · simp only [Option.some.injEq, SendBuf.mk.injEq]
    rw [List.take_of_length_le (by omega)]
    exact ⟨by omega, rfl⟩
  · simp only
    rw [if_neg (by omega)]
    simp only [Option.some.injEq, SendBuf.mk.injEq, and_true]
    omega

/-- What is in the send buffer for a file sent as it is, for any content it has now that is not longer than it was. -/
theorem plain_bytes (c : Cfg) (hc : CfgOk c) (f : Served) (hf : FileOk f) (hp : f.pre = none) (hth : f.size < c.threshold ∨ c.acc.decided = none) (now : Bytes) :
    ∃ h, view h = fileFields c f (Response.contLenStr f.size) ++ [] ∧ (∀ p ∈ view h, Clean p) ∧
      sendFile c f now = some ⟨(Response.wire (b!"HTTP/1.1 200 OK" ++ [13, 10]) (view h) (now.take f.size)).length + (f.size - now.length),
        Response.wire (b!"HTTP/1.1 200 OK" ++ [13, 10]) (view h) (now.take f.size)⟩ := by
  have hch : chosen c f = none := by
    unfold chosen
    rcases hth with h2 | h2
    · rw [if_neg (by omega)]
    · rw [h2, ite_self]
  obtain ⟨h, h', e1, e2, i, v, cl⟩ := form_sent c hc f hf none f.size
  simp only at e2 v
  refine ⟨h', v, cl, ?_⟩
  have hlen : (now.take f.size).length = min f.size now.length := List.length_take
  have hl := layout h' i f.size f.size (.file now) (now.take f.size) (Or.inr ⟨now, rfl, rfl⟩) (by omega)
  rw [hlen, show f.size - min f.size now.length = f.size - now.length by omega] at hl
  unfold sendFile
  rw [e1]
  simp only [prepareFile, hp, hch, e2, Option.map_some, Response.serialize]
  exact hl

/-- **C185 refuted (encoded in advance).**  A GET request for a file that is kept in an encoded form which the client does not accept, no coding having been chosen: the
client reads 200, no Content-Encoding, and the *encoded* bytes as content.  After them come bytes from the server's memory, as many as the encoded form is shorter than
the file, which the client takes for the next response. -/
theorem C185_unaccepted_form_refuted (s : Site) (hr : ∀ x ∈ s.app.routes, WrittenPath x.1) (mem : Nat → Nat) (m : Msg) (pieces : List Rcv) (now : Bytes → Bytes)
    (hw : Keep.Within s.full.env m) (ha : Keep.Arrives m pieces) (hu : Unserved s.full m.line.uri m.line.method)
    (hg : m.line.method = .get) {f : Served} (hf : s.files m.line.uri = some f) (hd : f.dir = false) (hok : FileOk f) (hc : CfgOk (s.app.cfg m.header))
    {k : Coding} {enc : Bytes} (hpre : f.pre = some (k, enc)) (hm : (s.app.cfg m.header).acc.matching k = false) (hdec : (s.app.cfg m.header).acc.decided = none)
    (hlt : enc.length < f.size) :
    ∃ room, ∀ b n, room ≤ n → ∃ len, Reads len enc.length ∧
      Trip.readOne (received s mem [pieces] [now] [List.replicate b .block ++ [.sent n]]) =
        some ((b!"HTTP/1.1 200 OK", fileFields (s.app.cfg m.header) f len, enc), (List.range (f.size - enc.length)).map mem) := by
  have hch : chosen (s.app.cfg m.header) f = none := by unfold chosen; rw [hdec, ite_self]
  obtain ⟨h, h', e1, e2, i, v, cl⟩ := form_sent (s.app.cfg m.header) hc f hok none enc.length
  simp only at e2 v
  have hsend : sendFile (s.app.cfg m.header) f (now m.line.uri) =
      some ⟨(Response.wire (b!"HTTP/1.1 200 OK" ++ [13, 10]) (view h') enc).length + (f.size - enc.length), Response.wire (b!"HTTP/1.1 200 OK" ++ [13, 10]) (view h') enc⟩ := by
    unfold sendFile
    rw [e1]
    simp only [prepareFile, hpre, hm, hch, e2, Option.map_some, Response.serialize, Bool.false_eq_true, if_false]
    exact layout h' i f.size f.size (.encoded enc) enc (Or.inl rfl) (by omega)
  have hread := read_form (c := s.app.cfg m.header) (f := f) cl v enc rfl
  refine ⟨(onWire mem ⟨(Response.wire (b!"HTTP/1.1 200 OK" ++ [13, 10]) (view h') enc).length + (f.size - enc.length),
    Response.wire (b!"HTTP/1.1 200 OK" ++ [13, 10]) (view h') enc⟩).length, ?_⟩
  intro b n hn
  refine ⟨Response.contLenStr enc.length, PyBridge.reads _, ?_⟩
  rw [one_file s hr mem m pieces now _ hw ha hu hg hf hd, hsend]
  simp only [Option.map_some, List.headD_cons, Send.C16_h1_exactly_once_partial _ b n hn []]
  have := hread.2 ((List.range (f.size - enc.length)).map mem)
  rw [List.append_nil] at this
  rw [← this]
  simp [onWire]

/-! ## C186: a file that changes -/

theorem run_state (c : Cfg) (mem : Nat → Nat) : ∀ (es : List Ev) (f : Served) (content : Bytes),
    (FileSt.run c mem ⟨f, content⟩ es).1 = ⟨{ f with tag := lastTag f.tag es }, lastContent content es⟩
  | [], _, _ => rfl
  | .write c' :: es, f, content => run_state c mem es f c'
  | .notice t :: es, f, content => run_state c mem es { f with tag := t } content
  | .get :: es, f, content => run_state c mem es f content

/-- What a client reads that asks for the file after the history `es`. -/
def readsAfter (c : Cfg) (mem : Nat → Nat) (f : Served) (content : Bytes) (es : List Ev) (o : Seen) : Prop :=
  ∃ bs, ((FileSt.run c mem ⟨f, content⟩ es).1.step c mem .get).2 = [some bs] ∧ Readable bs o

theorem plain_after (c : Cfg) (hc : CfgOk c) (mem : Nat → Nat) (f : Served) (hf : FileOk f) (content : Bytes) (hp : f.pre = none)
    (hth : f.size < c.threshold ∨ c.acc.decided = none) (es : List Ev) (ht : 13 ∉ lastTag f.tag es) :
    ∃ len, Reads len f.size ∧ readsAfter c mem f content es
      (b!"HTTP/1.1 200 OK", fileFields c { f with tag := lastTag f.tag es } len,
        (lastContent content es).take f.size ++ (List.range (f.size - (lastContent content es).length)).map mem) := by
  obtain ⟨h, hv, hcl, hb⟩ := plain_bytes c hc { f with tag := lastTag f.tag es } ⟨ht, hf.modified, hf.mime⟩ hp hth (lastContent content es)
  refine ⟨Response.contLenStr f.size, PyBridge.reads _, Response.wire (b!"HTTP/1.1 200 OK" ++ [13, 10]) (view h)
      ((lastContent content es).take f.size ++ (List.range (f.size - (lastContent content es).length)).map mem), ?_, ?_⟩
  · rw [run_state]
    simp only [FileSt.step]
    rw [hb]
    simp [onWire, Response.wire, Option.map_some]
  · have := read_form (f := { f with tag := lastTag f.tag es }) hcl hv ((lastContent content es).take f.size ++ (List.range (f.size - (lastContent content es).length)).map mem)
      (by simp only [List.length_append, List.length_take, List.length_map, List.length_range]; omega)
    rwa [List.append_nil] at this

/-- **C186** *(partial)*.  After any history of writes, notices and requests: a client that asks for a file which is sent as it is, and now has the length it had when
it was mounted, reads the content it has now; a client for which it is encoded reads an encoding of the content it has now, whatever its length.
Missing: contents of another length, and files encoded in advance. -/
theorem C186_present_content_partial (c : Cfg) (hc : CfgOk c) (mem : Nat → Nat) (f : Served) (hf : FileOk f) (content : Bytes) (hp : f.pre = none) (es : List Ev)
    (ht : 13 ∉ lastTag f.tag es) :
    ((f.size < c.threshold ∨ c.acc.decided = none) → (lastContent content es).length = f.size →
      ∃ len, Reads len (lastContent content es).length ∧
        readsAfter c mem f content es (b!"HTTP/1.1 200 OK", fileFields c { f with tag := lastTag f.tag es } len, lastContent content es)) ∧
    (∀ k, c.threshold ≤ f.size → c.acc.decided = some k → k ≠ 0 → c.overflow (c.compress k (lastContent content es)) = false →
      ∃ len, Reads len (c.compress k (lastContent content es)).length ∧
        readsAfter c mem f content es (b!"HTTP/1.1 200 OK", fileFields c { f with tag := lastTag f.tag es } len ++ [(b!"Content-Encoding", c.encName k)],
          c.compress k (lastContent content es))) := by
  constructor
  · intro hth hl
    obtain ⟨len, h1, h2⟩ := plain_after c hc mem f hf content hp hth es ht
    refine ⟨len, by rw [hl]; exact h1, ?_⟩
    rw [hl, Nat.sub_self, List.range_zero, List.map_nil, List.append_nil, List.take_of_length_le (by omega)] at h2
    exact h2
  · intro k hth hd hk ho
    generalize hnow : lastContent content es = now at ho ⊢
    obtain ⟨h, h', e1, e2, i, v, cl⟩ := form_sent c hc { f with tag := lastTag f.tag es } ⟨ht, hf.modified, hf.mime⟩ (some k) (c.compress k now).length
    simp only at e2 v
    have hch : chosen c { f with tag := lastTag f.tag es } = some k := by unfold chosen; rw [if_pos hth, hd]
    have hid : ¬ k = Response.identity := hk
    have hl := Response.C17_serialized_layout .v1_1 200 _ ok_line h' i (.encoded (c.compress k now)) (c.compress k now) rfl
      (max f.size (c.compress k now).length) (by omega)
    have hl : Response.serialize .v1_1 200 f.size (.ready (.encoded (c.compress k now)) (c.compress k now).length h') = _ := hl
    refine ⟨Response.contLenStr (c.compress k now).length, PyBridge.reads _, _, ?_, read_form cl v _ rfl⟩
    rw [run_state]
    simp only [FileSt.step, hnow, List.cons.injEq, and_true]
    unfold sendFile
    rw [e1]
    simp only [prepareFile, hp]
    rw [hp] at hch
    simp only [hch, if_neg hid, ho, Bool.false_eq_true, if_false, e2, Option.map_some, hl, onWire_full]

/-- **C186 refuted (shorter).**  After any history that leaves a file, sent as it is, shorter than it was when it was mounted: a client that asks for it reads, as the end of
its content, bytes of the server's memory, exactly as many as the file lost. -/
theorem C186_memory_sent_refuted (c : Cfg) (hc : CfgOk c) (mem : Nat → Nat) (f : Served) (hf : FileOk f) (content : Bytes) (hp : f.pre = none)
    (hth : f.size < c.threshold ∨ c.acc.decided = none) (es : List Ev) (ht : 13 ∉ lastTag f.tag es) (hlt : (lastContent content es).length < f.size) :
    ∃ len, Reads len f.size ∧ readsAfter c mem f content es
      (b!"HTTP/1.1 200 OK", fileFields c { f with tag := lastTag f.tag es } len,
        lastContent content es ++ (List.range (f.size - (lastContent content es).length)).map mem) := by
  obtain ⟨len, h1, h2⟩ := plain_after c hc mem f hf content hp hth es ht
  refine ⟨len, h1, ?_⟩
  rwa [List.take_of_length_le (by omega)] at h2

/-- **C186 refuted (longer).**  If the history leaves it longer, the client reads only the beginning, with the new hash if the change was noticed. -/
theorem C186_cut_refuted (c : Cfg) (hc : CfgOk c) (mem : Nat → Nat) (f : Served) (hf : FileOk f) (content : Bytes) (hp : f.pre = none)
    (hth : f.size < c.threshold ∨ c.acc.decided = none) (es : List Ev) (ht : 13 ∉ lastTag f.tag es) (hlt : f.size < (lastContent content es).length) :
    ∃ len, Reads len f.size ∧ readsAfter c mem f content es
      (b!"HTTP/1.1 200 OK", fileFields c { f with tag := lastTag f.tag es } len, (lastContent content es).take f.size) ∧
      (lastContent content es).take f.size ≠ lastContent content es := by
  obtain ⟨len, h1, h2⟩ := plain_after c hc mem f hf content hp hth es ht
  refine ⟨len, h1, ?_, ?_⟩
  · rw [show f.size - (lastContent content es).length = 0 by omega, List.range_zero, List.map_nil, List.append_nil] at h2
    exact h2
  · intro e
    have := congrArg List.length e
    rw [List.length_take] at this
    omega

/-- **C186 refuted (encoded in advance).**  A file that was encoded in advance is sent in this form for ever, to every client that accepts it and whatever was written since. -/
theorem C186_old_form_refuted (c : Cfg) (hc : CfgOk c) (mem : Nat → Nat) (f : Served) (hf : FileOk f) (content : Bytes) {k : Coding} {enc : Bytes} (hp : f.pre = some (k, enc))
    (hm : c.acc.matching k = true) (es : List Ev) (ht : 13 ∉ lastTag f.tag es) :
    ∃ len, Reads len enc.length ∧ readsAfter c mem f content es
      (b!"HTTP/1.1 200 OK", fileFields c { f with tag := lastTag f.tag es } len ++ [(b!"Content-Encoding", c.encName k)], enc) := by
  obtain ⟨h, h', e1, e2, i, v, cl⟩ := form_sent c hc { f with tag := lastTag f.tag es } ⟨ht, hf.modified, hf.mime⟩ (some k) enc.length
  simp only at e2 v
  have hl := Response.C17_serialized_layout .v1_1 200 _ ok_line h' i (.encoded enc) enc rfl (max f.size enc.length) (by omega)
  have hl : Response.serialize .v1_1 200 f.size (.ready (.encoded enc) enc.length h') = _ := hl
  refine ⟨Response.contLenStr enc.length, PyBridge.reads _, _, ?_, read_form cl v _ rfl⟩
  rw [run_state]
  simp only [FileSt.step, List.cons.injEq, and_true]
  unfold sendFile
  rw [e1]
  simp only [prepareFile, hp, hm, if_true, e2, Option.map_some, hl, onWire_full]

/-! ## C187, C188: Allow -/

/-- What a client reads that asks with this request, not GET, for a file or directory. -/
theorem notAllowed_seen (s : Site) (hr : ∀ x ∈ s.app.routes, WrittenPath x.1) (mem : Nat → Nat) (x : Exchange) (hp : Proper s mem x) (ho : x.out = .notAllowed) :
    client (received s mem [x.pieces] [x.now] [x.writes]) = some [(b!"HTTP/1.1 405 Method Not Allowed",
      [(b!"Allow", joinMethods (validMethods s.app.table x.msg.line.uri)), (b!"Server", b!"fly"), (b!"Date", s.app.cfg0.date), (b!"Connection", b!"keep-alive"),
        (b!"Content-Length", b!"0")], [])] := by
  have hm := hp.makes
  rw [ho] at hm
  obtain ⟨h1, h2, ⟨f, h3⟩, h5, h6⟩ := hm
  have hrep : Keep.replyTo s.full.env x.msg = .status 405 := by
    rw [unserved_file s hr x.msg h1 h3, if_pos h2]
  obtain ⟨h, buf, e1, e2, hrd⟩ := notAllowed_read s.app.cfg0 h5 h6 s.app.table x.msg.line.uri
  obtain ⟨b, hq⟩ := asked_reply s.full.env x.msg
  have hans := Keep.answer_within s.full.env x.msg hp.within
  have hb : s.bytes x.now mem (.handler 0 x.msg.line x.msg.header b) (Keep.replyTo s.full.env x.msg) = some buf.bytes := by
    rw [hrep]
    simp only [Site.bytes, e1, e2, Option.map_some]
  obtain ⟨s1, s2⟩ := sessions s [x] (by
    intro y hy
    rcases List.mem_singleton.1 hy with rfl
    refine ⟨hp.within, ?_, hp.arrives⟩
    intro i l h b ha
    rw [hans, hrep] at ha
    simp at ha)
  have hsent : x.Sent s mem buf.bytes := by unfold Exchange.Sent; rw [hq]; exact hb
  have hw := writeAll_each s mem [x] [buf.bytes] (.cons ⟨hsent, hp.fitting b _ _ hans hb⟩ .nil)
  simp only [List.map_cons, List.map_nil] at s1 s2 hw
  unfold received
  rw [s1, s2, hw]
  exact Trip.client_all [buf.bytes] [_] (.cons hrd .nil)

theorem mem_table (s : Site) (hr : ∀ x ∈ s.app.routes, WrittenPath x.1) {p : Bytes} {meth : Method} {i : Nat} (h : (p, meth, i) ∈ s.app.routes) :
    ∃ r ∈ s.app.table, r.uri = p ∧ r.method = meth := by
  rw [← Trip.table_routes s.app hr] at h
  obtain ⟨r, hr', e⟩ := List.mem_map.1 h
  simp only [Prod.mk.injEq] at e
  exact ⟨r, hr', e.1, e.2.1⟩

/-- **C187**.  A request with another method than GET for a file or directory, for which there is no function, gets 405 with a field Allow that lists GET and every
method for which there is a function at this path. -/
theorem C187_allow_omits_nothing (s : Site) (hr : ∀ x ∈ s.app.routes, WrittenPath x.1) (mem : Nat → Nat) (x : Exchange) (hp : Proper s mem x) (ho : x.out = .notAllowed) :
    ∃ allow rest, client (received s mem [x.pieces] [x.now] [x.writes]) = some [(b!"HTTP/1.1 405 Method Not Allowed", (b!"Allow", allow) :: rest, [])] ∧
      ∀ meth, (meth = .get ∨ ∃ r ∈ s.app.routes, Serves r.1 r.2.1 x.msg.line.uri meth) → Req.methodName meth ∈ listed allow := by
  refine ⟨_, _, notAllowed_seen s hr mem x hp ho, ?_⟩
  intro meth hmeth
  rw [listed_join _ (by simp [validMethods])]
  apply List.mem_map.2
  refine ⟨meth, ?_, rfl⟩
  have hm := hp.makes
  rw [ho] at hm
  obtain ⟨h1, _⟩ := hm
  by_cases hg : meth = .get
  · subst hg; simp [validMethods]
  rcases hmeth with rfl | ⟨⟨p, meth', i⟩, hx, hfit, hpl⟩
  · exact absurd rfl hg
  simp only at hfit hpl
  have hplain : Route.Plain p := by
    apply Classical.byContradiction
    intro hn
    exact h1 (p, meth', i) hx ⟨hfit, fun h => absurd h hn⟩
  have he := (Route.fits_plain _ _ hplain).1 hfit
  have hm' := hpl hplain
  subst hm'
  obtain ⟨r, hr1, hr2, hr3⟩ := mem_table s hr hx
  unfold validMethods
  refine List.mem_cons_of_mem _ (List.mem_map.2 ⟨r, List.mem_filter.2 ⟨hr1, ?_⟩, hr3⟩)
  rw [hr2, hr3]
  simp [he, hg]

/-- **C188** *(partial)*.  If no path of a function is a proper beginning of the path, Allow lists only GET and methods for which there is a function at this path.
Missing: other applications, and directories, for which GET is listed too. -/
theorem C188_allow_lists_no_more_partial (s : Site) (hr : ∀ x ∈ s.app.routes, WrittenPath x.1) (mem : Nat → Nat) (x : Exchange) (hp : Proper s mem x) (ho : x.out = .notAllowed)
    (hpre : ∀ r ∈ s.app.routes, r.1 <+: x.msg.line.uri → r.1 = x.msg.line.uri) :
    ∃ allow rest, client (received s mem [x.pieces] [x.now] [x.writes]) = some [(b!"HTTP/1.1 405 Method Not Allowed", (b!"Allow", allow) :: rest, [])] ∧
      ∀ n ∈ listed allow, ∃ meth, n = Req.methodName meth ∧ (meth = .get ∨ ∃ r ∈ s.app.routes, r.1 = x.msg.line.uri ∧ r.2.1 = meth) := by
  refine ⟨_, _, notAllowed_seen s hr mem x hp ho, ?_⟩
  intro n hn
  rw [listed_join _ (by simp [validMethods])] at hn
  obtain ⟨meth, hmeth, rfl⟩ := List.mem_map.1 hn
  refine ⟨meth, rfl, ?_⟩
  unfold validMethods at hmeth
  rcases List.mem_cons.1 hmeth with rfl | hmeth
  · exact Or.inl rfl
  · right
    obtain ⟨r, hr', e⟩ := List.mem_map.1 hmeth
    obtain ⟨h1, h2⟩ := List.mem_filter.1 hr'
    rw [Bool.and_eq_true, decide_eq_true_eq] at h2
    have hin : (r.uri, r.method, r.fn) ∈ s.app.routes := by
      rw [← Trip.table_routes s.app hr]
      exact List.mem_map.2 ⟨r, h1, rfl⟩
    refine ⟨_, hin, hpre _ hin ⟨x.msg.line.uri.drop r.uri.length, ?_⟩, e⟩
    show r.uri ++ _ = _
    have := List.take_append_drop r.uri.length x.msg.line.uri
    rwa [h2.1] at this

/-- **C188 refuted.**  Whenever the path of a function for another method than GET is a proper beginning of the path (like `/`, for every path), its method is listed in
Allow: also if there is no function for it at this path, so that the request with this method gets 405 again, with the same list. -/
theorem C188_prefix_listed_refuted (s : Site) (hr : ∀ x ∈ s.app.routes, WrittenPath x.1) (mem : Nat → Nat) (x : Exchange) (hp : Proper s mem x) (ho : x.out = .notAllowed)
    {p : Bytes} {meth : Method} {i : Nat} (hroute : (p, meth, i) ∈ s.app.routes) (hg : meth ≠ .get) (hpre : p <+: x.msg.line.uri)
    (y : Exchange) (hy : Proper s mem y) (hoy : y.out = .notAllowed) (hu : y.msg.line.uri = x.msg.line.uri) (_ : y.msg.line.method = meth) :
    ∃ allow rest, Req.methodName meth ∈ listed allow ∧
      client (received s mem [x.pieces] [x.now] [x.writes]) = some [(b!"HTTP/1.1 405 Method Not Allowed", (b!"Allow", allow) :: rest, [])] ∧
      client (received s mem [y.pieces] [y.now] [y.writes]) = some [(b!"HTTP/1.1 405 Method Not Allowed", (b!"Allow", allow) :: rest, [])] := by
  refine ⟨_, _, ?_, notAllowed_seen s hr mem x hp ho, by rw [notAllowed_seen s hr mem y hy hoy, hu]⟩
  rw [listed_join _ (by simp [validMethods])]
  refine List.mem_map.2 ⟨meth, ?_, rfl⟩
  obtain ⟨r, h1, h2, h3⟩ := mem_table s hr hroute
  unfold validMethods
  refine List.mem_cons_of_mem _ (List.mem_map.2 ⟨r, List.mem_filter.2 ⟨h1, ?_⟩, h3⟩)
  rw [h2, h3]
  obtain ⟨t, ht⟩ := hpre
  rw [← ht]
  simp [hg]

/-! ## A site -/

/-- A function for POST at `/`, a file `/x` and a directory `/a`; another file is kept encoded. -/
def sampleSite : Site where
  app := { Trip.sampleApp with routes := [(b!"/", .post, 1), (b!"/f", .get, 1)] }
  files u :=
    if u = b!"/x" then some ⟨false, 5, b!"0123456789abcdef", b!"Mon, 16 Nov 2026 10:00:00 GMT", b!"text/html", none⟩
    else if u = b!"/a" then some ⟨true, 4096, b!"00", b!"Mon, 16 Nov 2026 10:00:00 GMT", b!"text/plain", none⟩
    else none
  read _ := none

def sampleMem (n : Nat) : Nat := 65 + n % 26

theorem sample_written : ∀ x ∈ sampleSite.app.routes, WrittenPath x.1 := by
  intro x hx
  have hx : x ∈ [(b!"/", Method.post, 1), (b!"/f", Method.get, 1)] := hx
  simp only [List.mem_cons, List.not_mem_nil, or_false] at hx
  rcases hx with rfl | rfl <;> exact Or.inl (by unfold Route.Plain; decide)

theorem sample_unserved (u : Bytes) (m : Method) (h1 : u ≠ b!"/") (h2 : u ≠ b!"/f") : Unserved sampleSite.full u m := by
  intro x hx
  have hx : x ∈ [(b!"/", Method.post, 1), (b!"/f", Method.get, 1)] := hx
  simp only [List.mem_cons, List.not_mem_nil, or_false] at hx
  rcases hx with rfl | rfl
  · rintro ⟨h, _⟩
    exact h1 ((Route.fits_plain _ _ (by unfold Route.Plain; decide)).1 h).symm
  · rintro ⟨h, _⟩
    exact h2 ((Route.fits_plain _ _ (by unfold Route.Plain; decide)).1 h).symm

/-- GET and HEAD of the file, and the function. -/
def sampleGetX : Exchange := ⟨Trip.lastMsg, [.data (Trip.lastMsg.text.take 7) false, .block, .data (Trip.lastMsg.text.drop 7) false], fun _ => b!"hello", 1, 1000,
  .file ⟨false, 5, b!"0123456789abcdef", b!"Mon, 16 Nov 2026 10:00:00 GMT", b!"text/html", none⟩⟩
def sampleHeadX : Exchange := ⟨Trip.headMsg, [.data Trip.headMsg.text false], fun _ => b!"hello", 0, 1000, .notAllowed⟩

theorem sampleGetX_proper : Proper sampleSite sampleMem sampleGetX where
  within := ⟨Trip.lastMsg_good, rfl, by decide +kernel, by decide⟩
  arrives := ⟨by
    intro r hr
    simp only [sampleGetX, List.mem_cons, List.not_mem_nil, or_false] at hr
    rcases hr with rfl | rfl | rfl
    · exact Or.inr ⟨_, by decide, rfl⟩
    · exact Or.inl rfl
    · exact Or.inr ⟨_, by decide, rfl⟩, by decide +kernel⟩
  makes := ⟨sample_unserved _ _ (by decide) (by decide), rfl, rfl, rfl, ⟨by decide, by decide, by decide⟩, Trip.sampleCfg_ok, ⟨rfl, by simp⟩,
    Or.inr (Or.inl ⟨rfl, Or.inl (by decide)⟩)⟩
  fitting := by
    intro b bs r ha hb
    have hx : ReqEvent.answer sampleSite.full.env sampleGetX.msg = .reply .file := by decide +kernel
    rw [hx] at ha
    injection ha with ha
    subst ha
    have hb : sampleSite.bytes sampleGetX.now sampleMem (.handler 0 sampleGetX.msg.line sampleGetX.msg.header none) .file = some bs := hb
    have hlen : (sampleSite.bytes sampleGetX.now sampleMem (.handler 0 sampleGetX.msg.line sampleGetX.msg.header none) .file).all (fun b => decide (b.length ≤ 1000)) = true := by
      decide +kernel
    rw [hb] at hlen
    exact of_decide_eq_true hlen

theorem sampleHeadX_proper : Proper sampleSite sampleMem sampleHeadX where
  within := ⟨Trip.headMsg_good, rfl, by decide +kernel, by decide⟩
  arrives := Keep.arrives_whole _ (by decide)
  makes := ⟨sample_unserved _ _ (by decide) (by decide), by decide, ⟨_, rfl⟩, Trip.sampleCfg_ok, rfl⟩
  fitting := by
    intro b bs r ha hb
    have hx : ReqEvent.answer sampleSite.full.env sampleHeadX.msg = .reply (.status 405) := by decide +kernel
    rw [hx] at ha
    injection ha with ha
    subst ha
    have hb : sampleSite.bytes sampleHeadX.now sampleMem (.handler 0 sampleHeadX.msg.line sampleHeadX.msg.header none) (.status 405) = some bs := hb
    have hlen : (sampleSite.bytes sampleHeadX.now sampleMem (.handler 0 sampleHeadX.msg.line sampleHeadX.msg.header none) (.status 405)).all (fun b => decide (b.length ≤ 1000)) = true := by
      decide +kernel
    rw [hb] at hlen
    exact of_decide_eq_true hlen

/-- The hypotheses of C185 and C187 are met, and what the client gets: the file, then 405 with GET and, because of the function at `/`, POST. -/
example : (∀ x ∈ [sampleGetX, sampleHeadX], Proper sampleSite sampleMem x ∧ x.out.Stays) ∧
    received sampleSite sampleMem [sampleGetX.pieces, sampleHeadX.pieces] [sampleGetX.now, sampleHeadX.now] [sampleGetX.writes, sampleHeadX.writes] =
      b!"HTTP/1.1 200 OK\r\nContent-Length: 5\r\nETag: 0123456789abcdef\r\nDate: Mon, 16 Nov 2026 10:00:00 GMT\r\nLast-Modified: Mon, 16 Nov 2026 10:00:00 GMT\r\nContent-Type: text/html\r\nConnection: keep-alive\r\n\r\nhello" ++
      b!"HTTP/1.1 405 Method Not Allowed\r\nAllow: GET, POST\r\nServer: fly\r\nDate: Mon, 16 Nov 2026 10:00:00 GMT\r\nConnection: keep-alive\r\nContent-Length: 0\r\n\r\n" := by
  refine ⟨?_, by decide +kernel⟩
  intro x hx
  simp only [List.mem_cons, List.not_mem_nil, or_false] at hx
  rcases hx with rfl | rfl
  · exact ⟨sampleGetX_proper, trivial⟩
  · exact ⟨sampleHeadX_proper, trivial⟩

/-- The directory. -/
example : Makes { sampleSite with files := fun _ => some ⟨true, 4096, b!"00", b!"Mon, 16 Nov 2026 10:00:00 GMT", b!"text/plain", none⟩ } Trip.lastMsg (fun _ => []) .directory :=
  ⟨sample_unserved _ _ (by decide) (by decide), rfl, ⟨_, rfl, rfl⟩, Trip.sampleCfg_ok, rfl⟩

/-- A file mounted with five bytes, of which two are left: the client gets three bytes of memory.  Then it is written with six. -/
example : (FileSt.run Trip.sampleCfg sampleMem ⟨⟨false, 5, b!"t", b!"m", b!"text/html", none⟩, b!"hello"⟩ [.get, .write b!"no", .get, .notice b!"u", .write b!"longer", .get]).2.map
      (fun o => (o.bind client).map (·.map (·.2.2))) = [some [b!"hello"], some [b!"noABC"], some [b!"longe"]] := by decide +kernel

/-- A client that accepts no coding, a file that is kept encoded: the encoded bytes and memory. -/
example : (sendFile { Trip.sampleCfg with acc := ⟨fun _ => false, none⟩ } ⟨false, 5, b!"t", b!"m", b!"text/html", some (1, b!"GZ")⟩ b!"hello").map
      (fun b => onWire sampleMem b) =
    some (b!"HTTP/1.1 200 OK\r\nContent-Length: 2\r\nETag: t\r\nDate: Mon, 16 Nov 2026 10:00:00 GMT\r\nLast-Modified: m\r\nContent-Type: text/html\r\nConnection: keep-alive\r\n\r\nGZABC") ∧
    sendFile { Trip.sampleCfg with threshold := 3, acc := ⟨fun _ => true, some 0⟩ } ⟨false, 5, b!"t", b!"m", b!"text/html", none⟩ b!"hello" = none := by
  decide +kernel

end Fly.Site
