import Verif.Site.Spec
import Verif.Trip.Props
import Verif.Cache.Props

/-! # Lemmas about sites -/

namespace Fly.Site
open ReqEvent (Msg Rcv Env Reply St)
open Req (Method)
open Header (Pairs view HList Inv setFirst)
open PyBridge (Cfg Reads)
open Response (Coding SendBuf Clean)
open Trip (Seen CfgOk Unserved Readable Each)

/-! ## Lists with commas -/

theorem modify_modify (f g : Bytes → Bytes) (l : List Bytes) : (l.modifyHead g).modifyHead f = l.modifyHead (f ∘ g) := by cases l <;> rfl

theorem modify_id (f : Bytes → Bytes) (h : ∀ x, f x = x) (l : List Bytes) : l.modifyHead f = l := by
  cases l with
  | nil => rfl
  | cons a l => simp [h]

theorem listed_name : ∀ (n x : Bytes), 44 ∉ n → listed (n ++ x) = (listed x).modifyHead (n ++ ·)
  | [], x, _ => (modify_id _ (fun _ => rfl) _).symm
  | b :: n, x, h => by
    have hb : ¬ b = 44 := fun e => h (by simp [e])
    rw [List.cons_append, listed, if_neg hb, listed_name n x (fun hm => h (by simp [hm])), modify_modify]
    rfl

theorem listed_join : ∀ (ms : List Method), ms ≠ [] → listed (joinMethods ms) = ms.map Req.methodName
  | [], h => absurd rfl h
  | [m], _ => by
    have : listed (Req.methodName m ++ []) = _ := listed_name (Req.methodName m) [] (by cases m <;> decide)
    rw [List.append_nil] at this
    rw [joinMethods, this]
    simp [listed]
  | m :: n :: l, _ => by
    rw [joinMethods, List.append_assoc, listed_name _ _ (by cases m <;> decide)]
    · show List.modifyHead _ (listed (44 :: 32 :: joinMethods (n :: l))) = _
      have hid : ((listed (joinMethods (n :: l))).modifyHead (32 :: ·)).modifyHead (fun x => if x.head? = some 32 then x.tail else x) = listed (joinMethods (n :: l)) := by
        rw [modify_modify]
        exact modify_id _ (by intro x; simp) _
      rw [listed, if_pos rfl, listed, if_neg (by decide), hid, listed_join (n :: l) (by simp)]
      simp
    · simp

/-! ## The forms of a file -/

theorem fileHeader_ok (c : Cfg) (f : Served) : ∃ h, fileHeader c.date f = some h ∧ Inv h ∧ view h = fileFields c f (Response.contLenStr f.size) := by
  obtain ⟨i1, v1⟩ := PyBridge.append_ok PyBridge.inv_init (n := b!"Content-Length") ⟨by simp, by decide⟩ (Response.contLenStr f.size)
  obtain ⟨i2, v2⟩ := PyBridge.append_ok i1 (n := b!"ETag") ⟨by simp, by decide⟩ f.tag
  obtain ⟨h3, e3, i3, v3⟩ := PyBridge.addIfNo_ok i2 (n := b!"Date") ⟨by simp, by decide⟩ c.date
  obtain ⟨i4, v4⟩ := PyBridge.append_ok i3 (n := b!"Last-Modified") ⟨by simp, by decide⟩ f.modified
  obtain ⟨h5, e5, i5, v5⟩ := PyBridge.addIfNo_ok i4 (n := b!"Content-Type") ⟨by simp, by decide⟩ f.mime
  obtain ⟨i6, v6⟩ := PyBridge.append_ok i5 (n := b!"Connection") ⟨by simp, by decide⟩ b!"keep-alive"
  have v1' : view (Header.add HList.init b!"Content-Length" (Response.contLenStr f.size) false) = [(b!"Content-Length", Response.contLenStr f.size)] := by
    rw [v1]; rfl
  rw [v1'] at v2
  rw [v2] at v3
  have v3 : view h3 = [(b!"Content-Length", Response.contLenStr f.size), (b!"ETag", f.tag), (b!"Date", c.date)] := by rw [v3]; simp
  rw [v3] at v4
  rw [v4] at v5
  have v5 : view h5 = [(b!"Content-Length", Response.contLenStr f.size), (b!"ETag", f.tag), (b!"Date", c.date), (b!"Last-Modified", f.modified), (b!"Content-Type", f.mime)] := by
    rw [v5]; simp
  refine ⟨_, ?_, i6, ?_⟩
  · unfold fileHeader
    rw [e3]
    simp only
    rw [e5]
  · rw [v6, v5]; rfl

theorem fileFields_clean (c : Cfg) (hc : CfgOk c) (f : Served) (hf : FileOk f) (n : Nat) : ∀ p ∈ fileFields c f (Response.contLenStr n), Clean p := by
  intro p hp
  simp only [fileFields, List.mem_cons, List.not_mem_nil, or_false] at hp
  rcases hp with rfl | rfl | rfl | rfl | rfl | rfl
  · exact ⟨by simp, by simp, PyBridge.reads_clean (PyBridge.reads n)⟩
  · exact ⟨by simp, by simp, hf.tag⟩
  · exact ⟨by simp, by simp, hc.date⟩
  · exact ⟨by simp, by simp, hf.modified⟩
  · exact ⟨by simp, by simp, hf.mime⟩
  · exact ⟨by decide, by decide, by decide⟩

/-- The header list of a response with a file and its bytes, for a form of the file: the coding named, the length given, and the body found. -/
theorem form_sent (c : Cfg) (hc : CfgOk c) (f : Served) (hf : FileOk f) (k : Option Coding) (n : Nat) :
    ∃ h h', fileHeader c.date f = some h ∧
      Response.setContentLength (match k with | some k => Response.addContentEncoding c.encName h k | none => h) n = some h' ∧ Inv h' ∧
      view h' = fileFields c f (Response.contLenStr n) ++ (match k with | some k => [(b!"Content-Encoding", c.encName k)] | none => []) ∧
      (∀ p ∈ view h', Clean p) := by
  obtain ⟨h, e, i, v⟩ := fileHeader_ok c f
  cases k with
  | none =>
    obtain ⟨h', e', i', v'⟩ := PyBridge.setLen_ok i n
    have hv : view h' = fileFields c f (Response.contLenStr n) ++ [] := by rw [v', v]; rfl
    refine ⟨h, h', e, e', i', hv, ?_⟩
    rw [hv, List.append_nil]
    exact fileFields_clean c hc f hf n
  | some k =>
    obtain ⟨i1, v1⟩ := PyBridge.append_ok i (n := b!"Content-Encoding") ⟨by simp, by decide⟩ (c.encName k)
    obtain ⟨h', e', i', v'⟩ := PyBridge.setLen_ok i1 n
    have hv : view h' = fileFields c f (Response.contLenStr n) ++ [(b!"Content-Encoding", c.encName k)] := by rw [v', v1, v]; rfl
    refine ⟨h, h', e, e', i', hv, ?_⟩
    rw [hv]
    intro p hp
    rcases List.mem_append.1 hp with hp | hp
    · exact fileFields_clean c hc f hf n p hp
    · rcases List.mem_singleton.1 hp with rfl
      exact ⟨by simp, by simp, hc.encName k⟩

theorem ok_line : Response.statusLine .v1_1 200 = some (b!"HTTP/1.1 200 OK" ++ [13, 10]) := by decide +kernel

theorem onWire_full (mem : Nat → Nat) (bs : Bytes) : onWire mem ⟨bs.length, bs⟩ = bs := by simp [onWire]

/-- A response with this header list and these bytes of content is what the client reads. -/
theorem read_form {c : Cfg} {f : Served} {h : HList} (hclean : ∀ p ∈ view h, Clean p) {n : Nat} {announced : Pairs}
    (hv : view h = fileFields c f (Response.contLenStr n) ++ announced) (body : Bytes) (hn : n = body.length) :
    Readable (Response.wire (b!"HTTP/1.1 200 OK" ++ [13, 10]) (view h) body)
      (b!"HTTP/1.1 200 OK", fileFields c f (Response.contLenStr n) ++ announced, body) := by
  have hr := Response.C17_client_reads_response b!"HTTP/1.1 200 OK" (by decide) (view h) hclean body
  rw [← hv]
  refine Trip.read_of _ _ _ _ (Response.contLenStr n) hr ?_ (by rw [hn]; exact PyBridge.reads _)
  rw [hv]
  simp [fileFields]

/-- What is sent for a file of which there is a form for this client. -/
theorem file_read (c : Cfg) (hc : CfgOk c) (f : Served) (hf : FileOk f) (now : Bytes) (hu : Unchanged c f now) (hd : Deliverable c f now) (mem : Nat → Nat) :
    ∃ bs len announced body, (sendFile c f now).map (onWire mem) = some bs ∧ Reads len body.length ∧ Form c (f.pre.map (·.1)) now announced body ∧
      Readable bs (b!"HTTP/1.1 200 OK", fileFields c f len ++ announced, body) := by
  obtain ⟨hsize, hpre⟩ := hu
  -- encoded, in advance or not
  have coded : ∀ (k : Coding) (enc : Bytes), enc = c.compress k now → ((f.pre.map (·.1) = some k ∧ c.acc.matching k = true) ∨ c.acc.decided = some k) →
      (∀ h, prepareFile c f now h = (Response.setContentLength (Response.addContentEncoding c.encName h k) enc.length).map (.ready (.encoded enc) enc.length)) →
      ∃ bs len announced body, (sendFile c f now).map (onWire mem) = some bs ∧ Reads len body.length ∧ Form c (f.pre.map (·.1)) now announced body ∧
        Readable bs (b!"HTTP/1.1 200 OK", fileFields c f len ++ announced, body) := by
    intro k enc he hk hp
    obtain ⟨h, h', e1, e2, i, v, cl⟩ := form_sent c hc f hf (some k) enc.length
    simp only at e2 v
    have hl := Response.C17_serialized_layout .v1_1 200 _ ok_line h' i (.encoded enc) enc rfl (max f.size enc.length) (by omega)
    have hl : Response.serialize .v1_1 200 f.size (.ready (.encoded enc) enc.length h') = _ := hl
    refine ⟨_, Response.contLenStr enc.length, _, enc, ?_, PyBridge.reads _, Or.inr ⟨k, hk, rfl, he⟩, read_form cl v enc rfl⟩
    unfold sendFile
    rw [e1]
    simp only
    rw [hp h, e2]
    simp only [Option.map_some, hl, onWire_full]
  rcases hd with ⟨k, e, h1, h2⟩ | ⟨h1, h2⟩ | ⟨k, h1, h2, h3, h4⟩
  · refine coded k e (hpre k e h1) (Or.inl ⟨by rw [h1]; rfl, h2⟩) ?_
    intro h
    simp only [prepareFile, h1, h2, if_true]
  · have hch : chosen c f = none := by
      unfold chosen
      rcases h2 with h2 | h2
      · rw [if_neg (by omega)]
      · rw [h2, ite_self]
    obtain ⟨h, h', e1, e2, i, v, cl⟩ := form_sent c hc f hf none f.size
    simp only at e2 v
    have hl := Response.C17_serialized_layout .v1_1 200 _ ok_line h' i (.file now) now rfl f.size (by omega)
    refine ⟨_, Response.contLenStr f.size, _, now, ?_, ?_, Or.inl ⟨rfl, rfl⟩, read_form cl v now hsize⟩
    · unfold sendFile
      rw [e1]
      simp only [prepareFile, h1, hch, e2, Option.map_some, Response.serialize]
      rw [hsize] at hl ⊢
      rw [hl]
      simp only [Option.map_some, onWire_full]
    · rw [hsize]; exact PyBridge.reads _
  · have hch : chosen c f = some k := by unfold chosen; rw [if_pos h1, h2]
    have hid : ¬ k = Response.identity := h3
    rcases Option.eq_none_or_eq_some f.pre with hp | ⟨⟨k', e⟩, hp⟩
    · refine coded k _ rfl (Or.inr h2) ?_
      intro h
      simp only [prepareFile, hp, hch, if_neg hid, h4, Bool.false_eq_true, if_false]
    · by_cases hm : c.acc.matching k' = true
      · refine coded k' e (hpre k' e hp) (Or.inl ⟨by rw [hp]; rfl, hm⟩) ?_
        intro h
        simp only [prepareFile, hp, hm, if_true]
      · refine coded k _ rfl (Or.inr h2) ?_
        intro h
        simp only [prepareFile, hp, hm, hch, if_neg hid, h4, Bool.false_eq_true, if_false]

/-! ## 405 -/

theorem notAllowed_read (c : Cfg) (hc : CfgOk c) (hd : c.dflt 405 = none) (table : List Route.Route) (u : Bytes) :
    ∃ h buf, notAllowedHeader c.date table u = some h ∧ PyBridge.send c (some 405) h none = some buf ∧
      Readable buf.bytes (b!"HTTP/1.1 405 Method Not Allowed",
        [(b!"Allow", joinMethods (validMethods table u)), (b!"Server", b!"fly"), (b!"Date", c.date), (b!"Connection", b!"keep-alive"), (b!"Content-Length", b!"0")], []) := by
  have hjoin : ∀ ms, 13 ∉ joinMethods ms := by
    intro ms
    induction ms with
    | nil => simp [joinMethods]
    | cons m l ih =>
      cases l with
      | nil => rw [joinMethods]; cases m <;> decide
      | cons n l =>
        rw [joinMethods]
        · intro hm
          rcases List.mem_append.1 hm with hm | hm
          · rcases List.mem_append.1 hm with hm | hm
            · revert hm; cases m <;> decide
            · revert hm; decide
          · exact ih hm
        · simp
  generalize hal : joinMethods (validMethods table u) = al
  have hal' : 13 ∉ al := hal ▸ hjoin _
  obtain ⟨i0, v0⟩ := PyBridge.append_ok PyBridge.inv_init (n := b!"Allow") ⟨by simp, by decide⟩ al
  have v0 : view (Header.add HList.init b!"Allow" al false) = [(b!"Allow", al)] := by rw [v0]; rfl
  obtain ⟨h1, e1, i1, v1⟩ := PyBridge.addIfNo_ok i0 (n := b!"Server") ⟨by simp, by decide⟩ b!"fly"
  have v1 : view h1 = [(b!"Allow", al), (b!"Server", b!"fly")] := by rw [v1, v0]; simp
  obtain ⟨h2, e2, i2, v2⟩ := PyBridge.addIfNo_ok i1 (n := b!"Date") ⟨by simp, by decide⟩ c.date
  have v2 : view h2 = [(b!"Allow", al), (b!"Server", b!"fly"), (b!"Date", c.date)] := by rw [v2, v1]; simp
  obtain ⟨i3, v3⟩ := PyBridge.append_ok i2 (n := b!"Connection") ⟨by simp, by decide⟩ b!"keep-alive"
  have hs : notAllowedHeader c.date table u = some (Header.add h2 b!"Connection" b!"keep-alive" false) := by
    unfold notAllowedHeader; rw [hal, e1]; simp only; rw [e2]
  have hco : PyBridge.codingOf c [] = none := by unfold PyBridge.codingOf; rw [if_neg (by have := hc.threshold; simp; omega)]
  have hout : PyBridge.outBody c [] = [] := by unfold PyBridge.outBody; rw [hco]
  have hfl : PyBridge.outFields c [] = [] := by unfold PyBridge.outFields; rw [hco]
  obtain ⟨b, h4, e4, hb, hnf, i4, v4⟩ := PyBridge.prepare_ok c hc.threshold none (by intro k hk; rw [show (none : Option Bytes).getD [] = [] from rfl, hco] at hk; simp at hk) i3
  simp only [Option.getD_none, hout, hfl, List.append_nil] at e4 hb v4
  have v4 : view h4 = [(b!"Allow", al), (b!"Server", b!"fly"), (b!"Date", c.date), (b!"Connection", b!"keep-alive"), (b!"Content-Length", b!"0")] := by
    rw [v4, v3, v2]
    have : Response.contLenStr ([] : Bytes).length = b!"0" := by decide
    rw [this]
    simp [setFirst]
  obtain ⟨buf, e5, _, hr⟩ := PyBridge.serialize_ok (t := 405) (line := b!"HTTP/1.1 405 Method Not Allowed") (by decide +kernel) (by decide) i4
    (by
      rw [v4]
      intro p hp
      simp only [List.mem_cons, List.not_mem_nil, or_false] at hp
      rcases hp with rfl | rfl | rfl | rfl | rfl
      · exact ⟨by simp, by simp, hal'⟩
      · exact ⟨by decide, by decide, by decide⟩
      · exact ⟨by simp, by simp, hc.date⟩
      · exact ⟨by decide, by decide, by decide⟩
      · exact ⟨by decide, by decide, by decide⟩) hb hnf
  rw [v4] at hr
  refine ⟨_, buf, hs, ?_, Trip.read_of _ _ _ _ b!"0" hr (by simp) ⟨by decide, by decide, by decide⟩⟩
  unfold PyBridge.send PyBridge.prepareReply
  simp only [Option.getD_some, hd, PyBridge.defaultHeaders, e4]
  exact e5

/-! ## The connection -/

theorem not304 (read : Bytes → Option Int) (m : Msg) (tag modified : Bytes) : Cache.answers304 read m.header tag modified = some false := by
  apply Cache.C34_lower_case_refuted
  intro g hg
  unfold ReqEvent.Msg.header ReqHeader.cells at hg
  obtain ⟨p, _, rfl⟩ := List.mem_map.1 hg
  intro c hc
  obtain ⟨x, _, e⟩ := List.mem_map.1 (show c ∈ p.1.map Header.lower from hc)
  unfold Header.lower at e
  split at e <;> omega

theorem within_asked {e : Env} {m : Msg} (h : Keep.Within e m) : Keep.Within (asked e) m := ⟨h.good, h.nego, h.plain, h.fits⟩

theorem asked_reply (e : Env) (m : Msg) : ∃ b, Keep.replyTo (asked e) m = .handler 0 m.line m.header b := ⟨_, rfl⟩

theorem unserved_file (s : Site) (hr : ∀ x ∈ s.app.routes, Trip.WrittenPath x.1) (m : Msg) (h : Unserved s.full m.line.uri m.line.method) {f : Served}
    (hf : s.files m.line.uri = some f) :
    Keep.replyTo s.full.env m = if m.line.method ≠ .get then .status 405 else if f.dir then .status 404 else .file := by
  have hfind := Trip.find_unserved s.full hr h
  unfold Keep.replyTo ReqEvent.select
  simp only [Trip.App.env, hfind, Option.map_none]
  simp only [Site.full, hf, Option.map_some, not304, Option.getD_some, Bool.false_eq_true, if_false]

theorem bytes_app (s : Site) (now : Bytes → Bytes) (mem : Nat → Nat) (q r : Reply) (buf : SendBuf) (h : s.full.bytes r = some buf) :
    s.bytes now mem q r = some buf.bytes := by
  have hr : r ≠ .file ∧ r ≠ .status 405 := by
    constructor
    · rintro rfl; simp [Trip.App.bytes, Site.full] at h
    · rintro rfl; simp [Trip.App.bytes, Site.full] at h
  unfold Site.bytes
  cases q with
  | handler i l hh b =>
    simp only
    split
    · exact absurd rfl hr.1
    · exact absurd rfl hr.2
    · rw [h]; rfl
  | _ => simp only; rw [h]; rfl

end Fly.Site
