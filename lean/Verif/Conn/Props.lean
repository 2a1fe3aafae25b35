import Verif.Conn.Spec

/-! # C111 – C114: connections -/

namespace Fly.Conn

/-! ## ALPN -/

theorem rd_append (a b : Bytes) (c : Nat) : rd (a ++ c :: b) (a.length : Int) = some c := by
  rw [rd, if_neg (by omega)]; simp

theorem sameAt_eq (a m b name : Bytes) (h : name.length = m.length) : sameAt (a ++ m ++ b) name (a.length : Int) = some (decide (name = m)) := by
  induction name generalizing a m with
  | nil => cases m with
    | nil => rfl
    | cons => simp at h
  | cons c cs ih =>
    cases m with
    | nil => simp at h
    | cons d ds =>
      have h' : cs.length = ds.length := by simpa using h
      have e := ih (a ++ [d]) ds h'
      rw [sameAt]
      have r : rd (a ++ d :: ds ++ b) (a.length : Int) = some d := by rw [List.append_assoc, List.cons_append, rd_append]
      rw [r]
      simp only
      by_cases hd : d = c
      · rw [if_pos hd]
        have e2 : (a ++ [d] ++ ds ++ b) = a ++ d :: ds ++ b := by simp
        have e3 : (((a ++ [d]).length : Nat) : Int) = (a.length : Int) + 1 := by simp
        rw [e2, e3] at e
        rw [e]; simp [hd]
      · rw [if_neg hd]
        have : ¬ c = d := fun h => hd h.symm
        simp [this]

theorem wire_append (a b : List Bytes) : wire (a ++ b) = wire a ++ wire b := by simp [wire]
theorem wire_cons (n : Bytes) (b : List Bytes) : wire (n :: b) = n.length :: (n ++ wire b) := by simp [wire]

theorem signed_small (n : Nat) (h : n ≤ 127) : signed n = n := by rw [signed, if_neg (by omega)]

/-- One round at the name behind `pre`. -/
theorem round (name : Bytes) (pre : List Bytes) (n : Bytes) (post : List Bytes) (f : Nat) (hn : n.length ≤ 127) :
    alpnCmp name (wire (pre ++ n :: post)) (f + 1) ((wire pre).length : Int) =
      if name = n then .found else if post = [] ∨ wire post = [] then .absent
      else alpnCmp name (wire (pre ++ n :: post)) f ((wire (pre ++ [n])).length : Int) := by
  have hw : wire (pre ++ n :: post) = wire pre ++ n.length :: (n ++ wire post) := by rw [wire_append, wire_cons]
  rw [alpnCmp]
  rw [show rd (wire (pre ++ n :: post)) ((wire pre).length : Int) = some n.length by rw [hw]; exact rd_append _ _ _]
  simp only [signed_small _ hn]
  have hq : ((wire pre).length : Int) + 1 = ((wire pre ++ [n.length]).length : Int) := by simp
  have hl : (wire (pre ++ n :: post)).length = (wire pre).length + 1 + n.length + (wire post).length := by
    rw [hw]; simp only [List.length_append, List.length_cons]; omega
  have hpos : ((wire (pre ++ [n])).length : Int) = ((wire pre).length : Int) + 1 + (n.length : Int) := by
    rw [wire_append, wire_cons]; simp [wire]; omega
  have hs : (if (name.length : Int) = (n.length : Int) then sameAt (wire (pre ++ n :: post)) name (((wire pre).length : Int) + 1) else some false) =
      some (decide (name = n)) := by
    by_cases h : (name.length : Int) = (n.length : Int)
    · rw [if_pos h, hq]
      have := sameAt_eq (wire pre ++ [n.length]) n (wire post) name (by omega)
      rw [hw]
      rw [show wire pre ++ n.length :: (n ++ wire post) = wire pre ++ [n.length] ++ n ++ wire post by simp]
      exact this
    · rw [if_neg h]
      have : name ≠ n := fun h' => h (by rw [h'])
      simp [this]
  rw [hs]
  by_cases h : name = n
  · simp [h]
  · simp only [h, decide_false, if_false]
    have hz : (post = [] ∨ wire post = []) ↔ ((wire (pre ++ n :: post)).length : Int) - 1 ≤ ((wire pre).length : Int) + 1 + (n.length : Int) - 1 := by
      constructor
      · intro h
        have : (wire post).length = 0 := by
          rcases h with h | h
          · rw [h]; rfl
          · rw [h]; rfl
        omega
      · intro h
        right
        exact List.length_eq_zero_iff.1 (by omega)
    by_cases h2 : post = [] ∨ wire post = []
    · rw [if_pos h2, if_pos (hz.1 h2)]
    · rw [if_neg h2, if_neg (fun h' => h2 (hz.2 h')), hpos]

theorem wire_ne (post : List Bytes) (h : post ≠ []) : wire post ≠ [] := by
  cases post with
  | nil => exact absurd rfl h
  | cons n p => rw [wire_cons]; simp

theorem alpnCmp_spec (name : Bytes) : ∀ (post pre : List Bytes) (n : Bytes) (f : Nat), n.length ≤ 127 → (∀ m ∈ post, m.length ≤ 127) → post.length < f →
    alpnCmp name (wire (pre ++ n :: post)) f ((wire pre).length : Int) = if name ∈ n :: post then .found else .absent
  | [], pre, n, f + 1, hn, _, _ => by
    rw [round name pre n [] f hn]
    by_cases h : name = n
    · simp [h]
    · simp [h]
  | m :: post, pre, n, f + 1, hn, hp, hf => by
    rw [round name pre n (m :: post) f hn]
    by_cases h : name = n
    · simp [h]
    · rw [if_neg h, if_neg (by simp [wire_ne])]
      have := alpnCmp_spec name post (pre ++ [n]) m f (hp m (by simp)) (fun x hx => hp x (by simp [hx])) (by simp at hf; omega)
      rw [List.append_assoc, List.singleton_append] at this
      rw [this]
      have e : (name ∈ n :: m :: post) ↔ name ∈ m :: post := by
        constructor
        · intro h'; rcases List.mem_cons.1 h' with h' | h'
          · exact absurd h' h
          · exact h'
        · intro h'; exact List.mem_cons_of_mem _ h'
      by_cases h2 : name ∈ m :: post
      · rw [if_pos h2, if_pos (e.2 h2)]
      · rw [if_neg h2, if_neg (fun h' => h2 (e.1 h'))]

/-- **C111**, negotiation *(partial)*.  For every list of protocols a client offers over TLS, with names of at most 127 bytes, the server selects HTTP/2 if
it is among them, else HTTP/1.1 if that is, else nothing, after at most one round for each name.  Missing: longer names, which the
standard allows, refuted below. -/
theorem C111_negotiation_partial (names : List Bytes) (h0 : names ≠ []) (h : ∀ n ∈ names, n.length ≤ 127) (rounds : Nat) (hr : names.length ≤ rounds) :
    alpn (wire names) rounds = choice names := by
  cases names with
  | nil => exact absurd rfl h0
  | cons n post =>
    have key : ∀ name : Bytes, alpnCmp name (wire (n :: post)) rounds 0 = if name ∈ n :: post then .found else .absent := by
      intro name
      have := alpnCmp_spec name post [] n rounds (h n (by simp)) (fun m hm => h m (by simp [hm])) (by simp only [List.length_cons] at hr; omega)
      simpa [wire] using this
    rw [alpn, key, key, choice]
    by_cases h1 : (b!"h2" : Bytes) ∈ n :: post
    · rw [if_pos h1, if_pos h1]
    · rw [if_neg h1, if_neg h1]
      by_cases h2 : (b!"http/1.1" : Bytes) ∈ n :: post
      · rw [if_pos h2, if_pos h2]
      · rw [if_neg h2, if_neg h2]

example : alpn (wire [b!"spdy/3", b!"http/1.1", b!"h2"]) 3 = .selected .v2 ∧ alpn (wire [b!"spdy/3", b!"http/1.1"]) 2 = .selected .v1 ∧
    alpn (wire [b!"imap"]) 1 = .noack := by decide

/-- Names before the one of interest do not change the search. -/
theorem skip (name : Bytes) (rest : List Bytes) (hrest : rest ≠ []) : ∀ (pre done : List Bytes) (f : Nat), (∀ m ∈ pre, m.length ≤ 127) → name ∉ pre →
    alpnCmp name (wire (done ++ (pre ++ rest))) (pre.length + f) ((wire done).length : Int) = alpnCmp name (wire (done ++ (pre ++ rest))) f ((wire (done ++ pre)).length : Int)
  | [], done, f, _, _ => by simp
  | m :: pre, done, f, h, hne => by
    have e := skip name rest hrest pre (done ++ [m]) f (fun x hx => h x (by simp [hx])) (fun h' => hne (List.mem_cons_of_mem _ h'))
    have hr := round name done m (pre ++ rest) (pre.length + f) (h m (by simp))
    have hnm : name ≠ m := fun h' => hne (by simp [h'])
    have hpr : pre ++ rest ≠ [] := by simp [hrest]
    rw [if_neg hnm, if_neg (by simp [wire_ne _ hpr, hrest])] at hr
    rw [show (m :: pre).length + f = pre.length + f + 1 by simp; omega, List.cons_append, hr]
    rw [show done ++ [m] ++ (pre ++ rest) = done ++ m :: (pre ++ rest) by simp] at e
    rw [e]
    simp

/-- **C111 refuted** for a name of 255 bytes: if it is offered before HTTP/2, the worker searches for ever. -/
theorem C111_name_of_255_hangs_refuted (pre post : List Bytes) (n : Bytes) (hn : n.length = 255) (hp : ∀ m ∈ pre, m.length ≤ 127) (h2 : b!"h2" ∉ pre) (rounds : Nat) :
    alpn (wire (pre ++ n :: post)) rounds = .running := by
  have loop : ∀ f, alpnCmp b!"h2" (wire (pre ++ n :: post)) f ((wire pre).length : Int) = .running := by
    intro f
    induction f with
    | zero => rfl
    | succ f ih =>
      have hw : wire (pre ++ n :: post) = wire pre ++ n.length :: (n ++ wire post) := by rw [wire_append, wire_cons]
      rw [alpnCmp, show rd (wire (pre ++ n :: post)) ((wire pre).length : Int) = some n.length by rw [hw]; exact rd_append _ _ _]
      have hs : signed n.length = -1 := by rw [hn]; decide
      have hl : (wire (pre ++ n :: post)).length = (wire pre).length + 1 + n.length + (wire post).length := by
        rw [hw]; simp only [List.length_append, List.length_cons]; omega
      simp only [hs]
      rw [if_neg (by decide)]
      simp only
      rw [if_neg (by omega), show ((wire pre).length : Int) + 1 + -1 = (wire pre).length by omega]
      exact ih
  have all : ∀ f, alpnCmp b!"h2" (wire (pre ++ n :: post)) f 0 = .running := by
    intro f
    by_cases hf : pre.length ≤ f
    · have := skip b!"h2" (n :: post) (by simp) pre [] (f - pre.length) hp h2
      rw [show pre.length + (f - pre.length) = f by omega] at this
      simp only [List.nil_append] at this
      rw [show ((wire ([] : List Bytes)).length : Int) = 0 from rfl] at this
      rw [this]
      exact loop _
    · -- fewer rounds than names: still running
      have short : ∀ (pre done : List Bytes) (f : Nat), f ≤ pre.length → (∀ m ∈ pre, m.length ≤ 127) → b!"h2" ∉ pre →
          alpnCmp b!"h2" (wire (done ++ (pre ++ n :: post))) f ((wire done).length : Int) = .running := by
        intro pre
        induction pre with
        | nil => intro done f hf _ _; rw [show f = 0 by simpa using hf]; rfl
        | cons m pre ih =>
          intro done f hf h hne
          cases f with
          | zero => rfl
          | succ f =>
            have hr := round b!"h2" done m (pre ++ n :: post) f (h m (by simp))
            have hnm : (b!"h2" : Bytes) ≠ m := fun h' => hne (by simp [h'])
            rw [if_neg hnm, if_neg (by simp [wire_ne])] at hr
            rw [List.cons_append, hr]
            have := ih (done ++ [m]) f (by simpa using hf) (fun x hx => h x (by simp [hx])) (fun h' => hne (List.mem_cons_of_mem _ h'))
            rw [show done ++ [m] ++ (pre ++ n :: post) = done ++ m :: (pre ++ n :: post) by simp] at this
            exact this
      have := short pre [] f (by omega) hp h2
      simpa [wire] using this
  rw [alpn, all]

example : alpn (wire [b!"http/1.1", List.replicate 255 97, b!"h2"]) 50 = .running := by decide +kernel

/-- **C111 refuted** for names of 128 to 254 bytes near the start of the list: the search goes on before the list, outside of its memory. -/
theorem C111_long_name_overread_refuted (n : Bytes) (post : List Bytes) (h1 : 128 ≤ n.length) (h2 : n.length ≤ 254) (rounds : Nat) (hr : 2 ≤ rounds) :
    alpn (wire (n :: post)) rounds = .undef := by
  obtain ⟨r, rfl⟩ : ∃ r, rounds = r + 2 := ⟨rounds - 2, by omega⟩
  have key : alpnCmp b!"h2" (wire (n :: post)) (r + 2) 0 = .undef := by
    rw [alpnCmp]
    have e : rd (wire (n :: post)) 0 = some n.length := by rw [wire_cons]; rfl
    have hs : signed n.length = (n.length : Int) - 256 := by rw [signed, if_pos h1]
    simp only [e, hs]
    have hlen : ((b!"h2" : Bytes).length : Int) = 2 := by decide
    rw [hlen, if_neg (by omega)]
    simp only
    have hl : (wire (n :: post)).length = 1 + n.length + (wire post).length := by
      rw [wire_cons]; simp only [List.length_append, List.length_cons]; omega
    rw [if_neg (by omega), alpnCmp, rd, if_pos (by omega)]
  rw [alpn, key]

example : alpn (wire [List.replicate 200 97, b!"h2"]) 2 = .undef := by decide +kernel

/-! ## Protocols -/

theorem run_append (s : St) (a b : List In) : run s (a ++ b) = run (run s a) b := by simp [run, List.foldl_append]
theorem run_cons (s : St) (i : In) (b : List In) : run s (i :: b) = run (step s i) b := rfl

theorem run_agains (tls : Bool) (k : Nat) : run (accepted tls) (List.replicate k (.peek .again)) = accepted tls := by
  induction k with
  | zero => rfl
  | succ k ih => rw [List.replicate_succ, run_cons]; exact ih

/-- In a handshake that goes on. -/
def shaking : St := { accepted true with handler := .handshake, release := .acceptEnd, data := .accept, expired := .conn, sslFlag := true, ssl := .live, acc := .live }

def Wants (ws : List Shake) : Prop := ∀ w ∈ ws, w = .wantRead ∨ w = .wantWrite

theorem run_wants (ws : List Shake) (h : Wants ws) : run shaking (ws.map .shake) = shaking := by
  induction ws with
  | nil => rfl
  | cons w ws ih =>
    have hw : step shaking (.shake w) = shaking := by
      rcases h w (by simp) with rfl | rfl <;> decide
    rw [List.map_cons, run_cons, hw]
    exact ih (fun x hx => h x (by simp [hx]))

/-- **C111**, protocols.  However long the client waits and however the handshake is cut up: a server without TLS speaks HTTP/1 with a client that does not begin
a handshake and disconnects one that does; a server with TLS answers a client that begins none with a response (400) and speaks the negotiated protocol
with one that does, HTTP/1.1 if none was negotiated. -/
theorem C111_protocol (k : Nat) (b : Nat) (hb : b ≠ 22) (ws : List Shake) (hw : Wants ws) (v : Option Version) :
    (run (accepted false) (List.replicate k (.peek .again) ++ [.peek (.byte b)])).handler = .http1 ∧
    Closed (run (accepted false) (List.replicate k (.peek .again) ++ [.peek (.byte 22)])) ∧
    (run (accepted true) (List.replicate k (.peek .again) ++ [.peek (.byte b)])).handler = .response ∧
    (run (accepted true) (List.replicate k (.peek .again) ++ [.peek (.byte 22)] ++ ws.map .shake ++ [.shake (.ok v)])).handler =
      (if v = some .v2 then .http2 else .http1) := by
  refine ⟨?_, ?_, ?_, ?_⟩
  · rw [run_append, run_agains]
    simp [run, step, accepted, recognize, hb, connected, newReq, newRes]
  · rw [run_append, run_agains]
    refine ⟨by decide, by decide, by decide, by decide, by decide, by decide, by decide, by decide⟩
  · rw [run_append, run_agains]
    simp [run, step, accepted, recognize, hb, respondNoRequest, newReq, newRes]
  · rw [run_append, run_append, run_append, run_agains, show run (accepted true) [.peek (.byte 22)] = shaking from rfl, run_wants ws hw]
    cases v with
    | none => decide
    | some v => cases v <;> decide

example : Wants [.wantRead, .wantWrite, .wantRead] := by
  intro w hw
  simp at hw
  rcases hw with rfl | rfl | rfl <;> simp

/-! ## Ends of connections -/

/-- The objects of an open connection. -/
def Alive (s : St) : Prop :=
  s.sock = true ∧ s.conn = .live ∧ s.ended = .null ∧
  (s.sslFlag = true → s.ssl = .live) ∧ (s.sslFlag = false → s.ssl = .none) ∧
  match s.handler with
  | .recognize => s.release = .listenEnd ∧ s.data = .conn ∧ s.acc = .none ∧ s.req = .none ∧ s.res = .none ∧ s.sslFlag = false
  | .handshake => s.release = .acceptEnd ∧ s.expired = .conn ∧ s.sslFlag = true ∧ s.acc = .live ∧ s.req = .none ∧ s.res = .none
  | .http1 => s.release = .request ∧ s.data = .request ∧ s.req = .live ∧ s.res ≠ .live ∧ s.acc ≠ .live
  | .response => s.release = .response ∧ s.data = .response ∧ s.req = .live ∧ s.res = .live ∧ s.acc ≠ .live
  | .http2 => s.release = .http2 ∧ s.expired = .conn ∧ s.req ≠ .live ∧ s.res ≠ .live ∧ s.acc ≠ .live

def Inv (s : St) : Prop := (s.event = false ∧ Closed s) ∨ (s.worker = .up ∧ s.event = true ∧ Alive s)

theorem inv_accepted (tls : Bool) : Inv (accepted tls) := by
  right; refine ⟨rfl, rfl, ?_⟩
  simp [Alive, accepted]

/-- Nothing happens to a closed connection. -/
theorem step_closed (s : St) (i : In) (hc : Closed s) : step s i = s := by
  unfold step
  rw [if_neg (by simp [hc.1]), if_pos (by simp [hc.2.1]), if_neg (by simp [hc.2.2.1])]

theorem inv_step (s : St) (i : In) (h : Inv s) (ht : ¬ Trouble s i) : Inv (step s i) := by
  rcases h with ⟨he, hc⟩ | ⟨hw, he, ha⟩
  · left
    rw [step_closed s i hc]; exact ⟨he, hc⟩
  · obtain ⟨tls, worker, event, handler, release, data, expired, ended, sock, sslFlag, ssl, conn, acc, req, res, lost⟩ := s
    simp only at hw he
    subst hw he
    simp only [Alive] at ha
    obtain ⟨a1, a2, a3, a4, a5, a6⟩ := ha
    subst a1 a2 a3
    cases handler with
    | recognize =>
      obtain ⟨b1, b2, b3, b4, b5, b6⟩ := a6
      subst b1 b2 b3 b4 b5 b6
      have := a5 rfl; subst this
      cases i with
      | peek r =>
        cases r with
        | again => right; simp [step, recognize, Alive]
        | eof => left; simp [step, recognize, connRelease, gone, Closed]
        | error => exact absurd (Or.inl rfl) ht
        | byte b =>
          by_cases hb : b = 22
          · cases tls with
            | true => right; simp [step, recognize, hb, Alive]
            | false => left; simp [step, recognize, hb, connRelease, gone, Closed]
          · right
            cases tls <;> simp [step, recognize, hb, respondNoRequest, newReq, newRes, connected, newReq, newRes, Alive]
      | timeout => exact absurd (Or.inr (Or.inr (Or.inr (Or.inr ⟨Or.inl rfl, Or.inl rfl⟩)))) ht
      | finish => exact absurd (Or.inr (Or.inr (Or.inr (Or.inr ⟨Or.inr rfl, Or.inl rfl⟩)))) ht
      | shake r => right; simp [step, Alive]
      | req r => right; simp [step, Alive]
      | resp r => right; simp [step, Alive]
    | handshake =>
      obtain ⟨b1, b2, b3, b4, b5, b6⟩ := a6
      subst b1 b2 b3 b4 b5 b6
      have := a4 rfl; subst this
      cases i with
      | shake r =>
        cases r with
        | ok v =>
          right
          cases v with
          | none => simp [step, handshake, versionOf, connected, newReq, newRes, Alive]
          | some v => cases v <;> simp [step, handshake, versionOf, connected, newReq, newRes, Alive]
        | wantRead => right; simp [step, handshake, Alive]
        | wantWrite => right; simp [step, handshake, Alive]
        | syscallGone => exact absurd (Or.inr (Or.inl rfl)) ht
        | syscall => left; simp [step, handshake, connRelease, gone, Closed]
        | ssl => left; simp [step, handshake, connRelease, gone, Closed]
        | other => left; simp [step, handshake, connRelease, gone, Closed]
      | timeout => exact absurd (Or.inr (Or.inr (Or.inr (Or.inr ⟨Or.inl rfl, Or.inr rfl⟩)))) ht
      | finish => exact absurd (Or.inr (Or.inr (Or.inr (Or.inr ⟨Or.inr rfl, Or.inr rfl⟩)))) ht
      | peek r => right; simp [step, Alive]
      | req r => right; simp [step, Alive]
      | resp r => right; simp [step, Alive]
    | http1 =>
      obtain ⟨b1, b2, b3, b4, b5⟩ := a6
      subst b1 b2 b3
      have fin : Closed (gone (requestEnd ⟨tls, .up, true, .http1, .request, .request, expired, .null, true, sslFlag, ssl, .live, acc, .live, res, lost⟩)) := by
        cases sslFlag with
        | true => have := a4 rfl; subst this; simp [requestEnd, reqRelease, connRelease, gone, Closed, b4, b5]
        | false => have := a5 rfl; subst this; simp [requestEnd, reqRelease, connRelease, gone, Closed, b4, b5]
      cases i with
      | req r =>
        cases r with
        | more => right; simp [step, http1, Alive, b4, b5]; exact ⟨a4, a5⟩
        | eof =>
          left
          cases sslFlag with
          | true => have := a4 rfl; subst this; simp [step, http1, reqRelease, connRelease, gone, Closed, b4, b5]
          | false => have := a5 rfl; subst this; simp [step, http1, reqRelease, connRelease, gone, Closed, b4, b5]
        | error =>
          cases sslFlag with
          | true => left; exact ⟨rfl, fin⟩
          | false => exact absurd (Or.inr (Or.inr (Or.inr (Or.inl ⟨rfl, rfl⟩)))) ht
        | badLine => right; simp [step, http1, respondNoRequest, newReq, newRes, Alive, b5]; exact ⟨a4, a5⟩
        | answer => right; simp [step, http1, respond, newRes, Alive, b5]; exact ⟨a4, a5⟩
      | timeout => left; exact ⟨rfl, fin⟩
      | finish => left; exact ⟨rfl, fin⟩
      | peek r => right; simp [step, Alive, b4, b5]; exact ⟨a4, a5⟩
      | shake r => right; simp [step, Alive, b4, b5]; exact ⟨a4, a5⟩
      | resp r => right; simp [step, Alive, b4, b5]; exact ⟨a4, a5⟩
    | response =>
      obtain ⟨b1, b2, b3, b4, b5⟩ := a6
      subst b1 b2 b3 b4
      have fin : Closed (gone (responseEnd ⟨tls, .up, true, .response, .response, .response, expired, .null, true, sslFlag, ssl, .live, acc, .live, .live, lost⟩)) := by
        cases sslFlag with
        | true => have := a4 rfl; subst this; simp [responseEnd, reqRelease, resRelease, connRelease, gone, Closed, b5]
        | false => have := a5 rfl; subst this; simp [responseEnd, reqRelease, resRelease, connRelease, gone, Closed, b5]
      cases i with
      | resp r =>
        cases r with
        | again => right; simp [step, response, Alive, b5]; exact ⟨a4, a5⟩
        | keep => right; simp [step, response, reqRelease, resRelease, newReq, Alive, b5]; exact ⟨a4, a5⟩
        | epipe => left; exact ⟨rfl, fin⟩
        | error => left; exact ⟨rfl, fin⟩
        | close => left; exact ⟨rfl, fin⟩
        | interim => exact absurd (Or.inr (Or.inr (Or.inl rfl))) ht
      | timeout => left; exact ⟨rfl, fin⟩
      | finish => left; exact ⟨rfl, fin⟩
      | peek r => right; simp [step, Alive, b5]; exact ⟨a4, a5⟩
      | shake r => right; simp [step, Alive, b5]; exact ⟨a4, a5⟩
      | req r => right; simp [step, Alive, b5]; exact ⟨a4, a5⟩
    | http2 =>
      obtain ⟨b1, b2, b3, b4, b5⟩ := a6
      subst b1 b2
      have fin : Closed (gone (http2End ⟨tls, .up, true, .http2, .http2, data, .conn, .null, true, sslFlag, ssl, .live, acc, req, res, lost⟩)) := by
        cases sslFlag with
        | true => have := a4 rfl; subst this; simp [http2End, connRelease, gone, Closed, b3, b4, b5]
        | false => have := a5 rfl; subst this; simp [http2End, connRelease, gone, Closed, b3, b4, b5]
      cases i with
      | timeout => left; exact ⟨rfl, fin⟩
      | finish => left; exact ⟨rfl, fin⟩
      | peek r => right; simp [step, Alive, b3, b4, b5]; exact ⟨a4, a5⟩
      | shake r => right; simp [step, Alive, b3, b4, b5]; exact ⟨a4, a5⟩
      | req r => right; simp [step, Alive, b3, b4, b5]; exact ⟨a4, a5⟩
      | resp r => right; simp [step, Alive, b3, b4, b5]; exact ⟨a4, a5⟩

theorem inv_run (s : St) (is : List In) (h : Inv s) (hc : Calm s is) : Inv (run s is) := by
  induction is generalizing s with
  | nil => exact h
  | cons i is ih => exact ih _ (inv_step s i h hc.1) hc.2

/-- **C112** *(partial)*.  Through every history of a connection, of any length, without the events listed in `Trouble`, the worker goes on, no freed object is
used, and at every moment the connection is either open with its event registered, or closed with everything released (the socket
closed exactly once).  Missing: the events listed, each refuted below. -/
theorem C112_connection_partial (tls : Bool) (is : List In) (h : Calm (accepted tls) is) : Open (run (accepted tls) is) ∨ Closed (run (accepted tls) is) := by
  rcases inv_run _ is (inv_accepted tls) h with ⟨_, hc⟩ | ⟨hw, he, ha⟩
  · exact .inr hc
  · exact .inl ⟨hw, he, ha.1, ha.2.1⟩

example : Calm (accepted true) [.peek .again, .peek (.byte 22), .shake .wantRead, .shake (.ok none), .req .more, .req .answer, .resp .again, .resp .keep, .req .answer, .resp .keep, .timeout] ∧
    Closed (run (accepted true) [.peek .again, .peek (.byte 22), .shake .wantRead, .shake (.ok none), .req .more, .req .answer, .resp .again, .resp .keep, .req .answer, .resp .keep, .timeout]) := by
  decide +kernel

/-- The client is seen to be gone. -/
def Left (s : St) (i : In) : Prop :=
  (s.handler = .recognize ∧ i = .peek .eof) ∨ (s.handler = .handshake ∧ (i = .shake .syscall ∨ i = .shake .ssl)) ∨
    (s.handler = .http1 ∧ (i = .req .eof ∨ (i = .req .error ∧ s.sslFlag = true))) ∨ (s.handler = .response ∧ (i = .resp .epipe ∨ i = .resp .error))

/-- **C112** *(partial)*.  A client that leaves, after whatever history, before its first byte, in the handshake (reported as an error), in a request or in a response, has its
connection closed and everything released at once.  Missing: see `C112_handshake_broken_off_refuted` and the resets. -/
theorem C112_left_partial (tls : Bool) (is : List In) (h : Calm (accepted tls) is) (i : In) (hl : Left (run (accepted tls) is) i) :
    Closed (run (accepted tls) (is ++ [i])) := by
  have hi := inv_run _ is (inv_accepted tls) h
  rw [run_append, show ∀ s, run s [i] = step s i from fun _ => rfl]
  generalize run (accepted tls) is = s at hi hl ⊢
  rcases hi with ⟨he, hc⟩ | ⟨hw, he, ha⟩
  · rw [step_closed s i hc]; exact hc
  · obtain ⟨tls, worker, event, handler, release, data, expired, ended, sock, sslFlag, ssl, conn, acc, req, res, lost⟩ := s
    simp only at hw he
    subst hw he
    simp only [Alive] at ha
    obtain ⟨a1, a2, a3, a4, a5, a6⟩ := ha
    subst a1 a2 a3
    have fl : sslFlag = true ∧ ssl = .live ∨ sslFlag = false ∧ ssl = .none := by
      cases sslFlag
      · exact .inr ⟨rfl, a5 rfl⟩
      · exact .inl ⟨rfl, a4 rfl⟩
    rcases hl with ⟨rfl, rfl⟩ | ⟨rfl, hi⟩ | ⟨rfl, hi⟩ | ⟨rfl, hi⟩
    · obtain ⟨b1, b2, b3, b4, b5, b6⟩ := a6
      subst b1 b2 b3 b4 b5 b6
      have := a5 rfl; subst this
      simp [step, recognize, connRelease, gone, Closed]
    · obtain ⟨b1, b2, b3, b4, b5, b6⟩ := a6
      subst b1 b2 b3 b4 b5 b6
      have := a4 rfl; subst this
      rcases hi with rfl | rfl <;> simp [step, handshake, connRelease, gone, Closed]
    · obtain ⟨b1, b2, b3, b4, b5⟩ := a6
      subst b1 b2 b3
      rcases hi with rfl | ⟨rfl, hs⟩
      · rcases fl with ⟨rfl, rfl⟩ | ⟨rfl, rfl⟩ <;> simp [step, http1, reqRelease, connRelease, gone, Closed, b4, b5]
      · simp only at hs
        subst hs
        have := a4 rfl; subst this
        simp [step, http1, requestEnd, reqRelease, connRelease, gone, Closed, b4, b5]
    · obtain ⟨b1, b2, b3, b4, b5⟩ := a6
      subst b1 b2 b3 b4
      rcases hi with rfl | rfl <;> rcases fl with ⟨rfl, rfl⟩ | ⟨rfl, rfl⟩ <;>
        simp [step, response, responseEnd, reqRelease, resRelease, connRelease, gone, Closed, b5]

example : Left (run (accepted false) [.peek (.byte 71), .req .answer, .resp .again]) (.resp .epipe) := by
  refine .inr (.inr (.inr ⟨by decide, .inl rfl⟩))

/-- A connection that waits for a request. -/
def Waiting (s : St) : Prop := Open s ∧ s.handler = .http1 ∧ s.data = .request ∧ s.req = .live ∧ s.res ≠ .live ∧ s.lost = 0

theorem run_const (s : St) (i : In) (h : step s i = s) (k : Nat) : run s (List.replicate k i) = s := by
  induction k with
  | zero => rfl
  | succ k ih => rw [List.replicate_succ, run_cons, h]; exact ih

theorem waiting_round (s : St) (h : Waiting s) (m : Nat × Nat) :
    Waiting (run s (List.replicate m.1 (.req .more) ++ [.req .answer] ++ List.replicate m.2 (.resp .again) ++ [.resp .keep])) := by
  obtain ⟨⟨h1, h2, h3, h4⟩, h5, h6, h7, hr, h8⟩ := h
  obtain ⟨tls, worker, event, handler, release, data, expired, ended, sock, sslFlag, ssl, conn, acc, req, res, lost⟩ := s
  simp only at h1 h2 h3 h4 h5 h6 h7 h8
  subst h1 h2 h3 h4 h5 h6 h7 h8
  rw [run_append, run_append, run_append, run_const _ (.req .more) (by simp [step, http1])]
  rw [run_const _ (.resp .again) (by simp [run, step, http1, respond, newRes, response])]
  simp [run, step, http1, respond, newReq, newRes, response, reqRelease, resRelease, Waiting, Open, hr]

/-- **C112**.  A client may make any number of requests on one connection, with or without TLS, received and answered in any number of pieces: afterwards the
connection is open, waits for the next request, and nothing was lost. -/
theorem C112_any_number_of_requests (pieces : List (Nat × Nat)) (v : Option Version) (hv : v ≠ some .v2) (b : Nat) (hb : b ≠ 22) (first : List In × Bool)
    (hs : first = ([.peek (.byte b)], false) ∨ first = ([.peek (.byte 22), .shake (.ok v)], true)) :
    let s := run (accepted first.2) (first.1 ++
      pieces.flatMap fun m => List.replicate m.1 (.req .more) ++ [.req .answer] ++ List.replicate m.2 (.resp .again) ++ [.resp .keep])
    Open s ∧ s.handler = .http1 ∧ s.req = .live ∧ s.lost = 0 := by
  have base : Waiting (run (accepted first.2) first.1) := by
    rcases hs with rfl | rfl
    · simp [run, step, recognize, accepted, hb, connected, newReq, newRes, Waiting, Open]
    · cases v with
      | none => simp [run, step, recognize, accepted, handshake, versionOf, connected, newReq, newRes, Waiting, Open]
      | some v => cases v with
        | v1 => simp [run, step, recognize, accepted, handshake, versionOf, connected, newReq, newRes, Waiting, Open]
        | v2 => exact absurd rfl hv
  intro s
  have main : Waiting s := by
    show Waiting (run _ _)
    rw [run_append]
    generalize run (accepted first.2) first.1 = t at base
    induction pieces generalizing t with
    | nil => exact base
    | cons m ms ih =>
      rw [List.flatMap_cons, run_append]
      exact ih _ (waiting_round t base m)
  exact ⟨main.1, main.2.1, main.2.2.2.1, main.2.2.2.2.2⟩

example : Waiting (run (accepted true) [.peek (.byte 22), .shake (.ok (some .v1)), .req .more, .req .answer, .resp .again, .resp .keep]) := by
  refine ⟨⟨by decide, by decide, by decide, by decide⟩, by decide, by decide, by decide, by decide, by decide⟩

/-- **C113** *(partial)*.  A client that is silent for too long after it began to speak HTTP is disconnected, and everything of its connection is released. -/
theorem C113_timeout_partial (tls : Bool) (is : List In) (h : Calm (accepted tls) is)
    (hh : (run (accepted tls) is).handler ≠ .recognize ∧ (run (accepted tls) is).handler ≠ .handshake) : Closed (run (accepted tls) (is ++ [.timeout])) := by
  have hi := inv_run _ is (inv_accepted tls) h
  rw [run_append, show ∀ s, run s [.timeout] = step s .timeout from fun _ => rfl]
  generalize run (accepted tls) is = s at hi hh ⊢
  have h2 := inv_step s .timeout hi (by
    rintro (h | h | h | h | h)
    · cases h
    · cases h
    · cases h
    · exact absurd h.1 (by simp)
    · rcases h.2 with h | h
      · exact hh.1 h
      · exact hh.2 h)
  rcases h2 with ⟨_, hc⟩ | ⟨hw, he, ha⟩
  · exact hc
  · -- the event is unregistered by the timeout
    exfalso
    rcases hi with ⟨h1, h3⟩ | ⟨h1, h3, _⟩
    · rw [step_closed s _ h3, h1] at he; cases he
    · have : (step s .timeout).event = false := by
        rw [step, if_neg (by simp [h1]), h3]
        simp [expire, gone]
      rw [this] at he; cases he

example : Calm (accepted false) [.peek (.byte 71), .req .more] ∧ (run (accepted false) [.peek (.byte 71), .req .more]).handler = .http1 := by decide

/-- **C113 refuted** for clients that connect and say nothing: when their time is over, the worker follows a null pointer, whatever it had been doing for others.
The same happens when the process is ended in an orderly way while there is such a client. -/
theorem C113_silent_client_refuted (tls : Bool) (k : Nat) (i : In) (hi : i = .timeout ∨ i = .finish) :
    (run (accepted tls) (List.replicate k (.peek .again) ++ [i])).worker = .undef := by
  rw [run_append, run_agains]
  rcases hi with rfl | rfl <;> cases tls <;> decide

example : (run (accepted false) [.timeout]).worker = .undef := by decide

/-- **C113 refuted** for clients that stop in the middle of a TLS handshake. -/
theorem C113_stalled_handshake_refuted (k : Nat) (ws : List Shake) (hw : Wants ws) (i : In) (hi : i = .timeout ∨ i = .finish) :
    (run (accepted true) (List.replicate k (.peek .again) ++ [.peek (.byte 22)] ++ ws.map .shake ++ [i])).worker = .undef := by
  rw [run_append, run_append, run_append, run_agains, show run (accepted true) [.peek (.byte 22)] = shaking from rfl, run_wants ws hw]
  rcases hi with rfl | rfl <;> decide

/-- **C112 refuted** for a client that closes the connection during the handshake (as the TLS library reports it up to version 1.1): the socket stays open and is
polled with an event that was freed; the next report of it uses the freed memory. -/
theorem C112_handshake_broken_off_refuted (k : Nat) (ws : List Shake) (hw : Wants ws) (i : In) :
    let s := run (accepted true) (List.replicate k (.peek .again) ++ [.peek (.byte 22)] ++ ws.map .shake ++ [.shake .syscallGone])
    s.worker = .up ∧ s.sock = true ∧ s.event = false ∧ (step s i).worker = .undef := by
  intro s
  have hs : s = step shaking (.shake .syscallGone) := by
    show run _ _ = _
    rw [run_append, run_append, run_append, run_agains, show run (accepted true) [.peek (.byte 22)] = shaking from rfl, run_wants ws hw]
    rfl
  rw [hs]
  refine ⟨by decide, by decide, by decide, ?_⟩
  cases i <;> rfl

/-- **C112 refuted** for a client that resets the connection before its first byte is read: the worker ends. -/
theorem C112_reset_before_request_refuted (tls : Bool) (k : Nat) : (run (accepted tls) (List.replicate k (.peek .again) ++ [.peek .error])).worker = .exited := by
  rw [run_append, run_agains]
  cases tls <;> decide

/-- **C112 refuted** for a client without TLS that resets the connection while it sends a request, at any time, also after any number of requests: the
worker ends, with all its other connections. -/
theorem C112_reset_in_request_refuted (tls : Bool) (is : List In) (h : Calm (accepted tls) is) (he : (run (accepted tls) is).event = true)
    (hh : (run (accepted tls) is).handler = .http1) (hs : (run (accepted tls) is).sslFlag = false) :
    (run (accepted tls) (is ++ [.req .error])).worker = .exited := by
  have hi := inv_run _ is (inv_accepted tls) h
  rw [run_append, show ∀ s, run s [.req .error] = step s (.req .error) from fun _ => rfl]
  generalize run (accepted tls) is = s at hi he hh hs ⊢
  rcases hi with ⟨h1, _⟩ | ⟨hw, _, _⟩
  · rw [h1] at he; cases he
  · unfold step
    rw [if_neg (by simp [hw]), if_neg (by simp [he])]
    simp [http1, hs, hh]

example : Calm (accepted false) [.peek (.byte 71), .req .answer, .resp .keep, .req .more] ∧
    (run (accepted false) [.peek (.byte 71), .req .answer, .resp .keep, .req .more]).handler = .http1 ∧
    (run (accepted false) [.peek (.byte 71), .req .answer, .resp .keep, .req .more]).event = true := by decide

/-- **C112 refuted** for every request that expects 100: when the interim response has been sent, at whatever point of the history, the worker uses the freed response. -/
theorem C112_interim_response_refuted (tls : Bool) (is : List In) (h : Calm (accepted tls) is) (he : (run (accepted tls) is).event = true)
    (hh : (run (accepted tls) is).handler = .response) : (run (accepted tls) (is ++ [.resp .interim])).worker = .undef := by
  have hi := inv_run _ is (inv_accepted tls) h
  rw [run_append, show ∀ s, run s [.resp .interim] = step s (.resp .interim) from fun _ => rfl]
  generalize run (accepted tls) is = s at hi he hh ⊢
  rcases hi with ⟨h1, _⟩ | ⟨hw, _, ha⟩
  · rw [h1] at he; cases he
  · obtain ⟨_, _, _, _, _, ha⟩ := ha
    rw [hh] at ha
    unfold step
    rw [if_neg (by simp [hw]), if_neg (by simp [he])]
    simp [hh, response, resRelease, backToRequest, ha.2.2.2.1, St.bad]

example : Calm (accepted false) [.peek (.byte 80), .req .more, .req .answer] ∧
    (run (accepted false) [.peek (.byte 80), .req .more, .req .answer]).handler = .response := by decide

/-- **C112 refuted** when `accept` fails, for every reason, among them that the process has too many open files, for which the code means to wait: the worker ends. -/
theorem C112_accept_error_refuted (tls : Bool) (errno : Nat) : (onAccept tls (.error errno)).1 = .exited := rfl

/-! ## Memory -/

theorem lost_step (s : St) (i : In) (hi : Inv s) (ht : ¬ Trouble s i) (hb : i ≠ .req .badLine) : (step s i).lost = s.lost := by
  rcases hi with ⟨he, hc⟩ | ⟨hw, he, ha⟩
  · rw [step_closed s i hc]
  · obtain ⟨tls, worker, event, handler, release, data, expired, ended, sock, sslFlag, ssl, conn, acc, req, res, lost⟩ := s
    simp only at hw he
    subst hw he
    simp only [Alive] at ha
    obtain ⟨a1, a2, a3, a4, a5, a6⟩ := ha
    subst a1 a2 a3
    have fl : sslFlag = true ∧ ssl = .live ∨ sslFlag = false ∧ ssl = .none := by
      cases sslFlag
      · exact .inr ⟨rfl, a5 rfl⟩
      · exact .inl ⟨rfl, a4 rfl⟩
    cases handler with
    | recognize =>
      obtain ⟨b1, b2, b3, b4, b5, b6⟩ := a6
      subst b1 b2 b3 b4 b5 b6
      have := a5 rfl; subst this
      cases i with
      | peek r =>
        cases r with
        | again => rfl
        | eof => rfl
        | error => rfl
        | byte b => by_cases hb : b = 22 <;> cases tls <;> simp [step, recognize, hb, connRelease, gone, respondNoRequest, connected, newReq, newRes]
      | timeout => rfl
      | finish => rfl
      | shake r => rfl
      | req r => rfl
      | resp r => rfl
    | handshake =>
      obtain ⟨b1, b2, b3, b4, b5, b6⟩ := a6
      subst b1 b2 b3 b4 b5 b6
      have := a4 rfl; subst this
      cases i with
      | shake r =>
        cases r with
        | ok v => cases v with
          | none => rfl
          | some v => cases v <;> rfl
        | _ => rfl
      | _ => rfl
    | http1 =>
      obtain ⟨b1, b2, b3, b4, b5⟩ := a6
      subst b1 b2 b3
      rcases fl with ⟨rfl, rfl⟩ | ⟨rfl, rfl⟩
      all_goals
        cases i with
        | req r =>
          cases r with
          | badLine => exact absurd rfl hb
          | answer => simp [step, http1, respond, newRes, b4]
          | _ => rfl
        | _ => rfl
    | response =>
      obtain ⟨b1, b2, b3, b4, b5⟩ := a6
      subst b1 b2 b3 b4
      rcases fl with ⟨rfl, rfl⟩ | ⟨rfl, rfl⟩
      all_goals
        cases i with
        | resp r => cases r <;> rfl
        | _ => rfl
    | http2 =>
      obtain ⟨b1, b2, b3, b4, b5⟩ := a6
      subst b1 b2
      rcases fl with ⟨rfl, rfl⟩ | ⟨rfl, rfl⟩ <;> cases i <;> rfl

/-- **C114** *(partial)*.  Without malformed request lines and the events of `Trouble` no memory is lost, through any number of requests. -/
theorem C114_no_leak_partial (tls : Bool) (is : List In) (h : Calm (accepted tls) is) (hb : In.req .badLine ∉ is) : (run (accepted tls) is).lost = 0 := by
  have key : ∀ (is : List In) (s : St), Inv s → Calm s is → In.req .badLine ∉ is → (run s is).lost = s.lost := by
    intro is
    induction is with
    | nil => intro s _ _ _; rfl
    | cons i is ih =>
      intro s hi hc hb
      rw [run_cons, ih _ (inv_step s i hi hc.1) hc.2 (fun h => hb (List.mem_cons_of_mem _ h))]
      exact lost_step s i hi hc.1 (fun h => hb (by simp [h]))
  exact key is _ (inv_accepted tls) h hb

/-- **C114 refuted**: each malformed request line, also after any number of requests on a connection, loses the memory of a request for as long as the worker lives. -/
theorem C114_bad_line_leaks_refuted (tls : Bool) (is : List In) (h : Calm (accepted tls) is) (he : (run (accepted tls) is).event = true)
    (hh : (run (accepted tls) is).handler = .http1) :
    let s := run (accepted tls) (is ++ [.req .badLine, .resp .close])
    Closed s ∧ s.lost = (run (accepted tls) is).lost + 1 := by
  have hi := inv_run _ is (inv_accepted tls) h
  intro s
  have hs : s = run (run (accepted tls) is) [.req .badLine, .resp .close] := run_append _ _ _
  rw [hs]
  generalize run (accepted tls) is = s0 at hi he hh ⊢
  rcases hi with ⟨h1, _⟩ | ⟨hw, _, ha⟩
  · rw [h1] at he; cases he
  · obtain ⟨tls', worker, event, handler, release, data, expired, ended, sock, sslFlag, ssl, conn, acc, req, res, lost⟩ := s0
    simp only at hw he hh
    subst hw he hh
    simp only [Alive] at ha
    obtain ⟨a1, a2, a3, a4, a5, b1, b2, b3, b4, b5⟩ := ha
    subst a1 a2 a3 b1 b2 b3
    cases sslFlag with
    | true => have := a4 rfl; subst this; simp [run, step, http1, respondNoRequest, newReq, newRes, response, responseEnd, reqRelease, resRelease, connRelease, gone, Closed, b4, b5]
    | false => have := a5 rfl; subst this; simp [run, step, http1, respondNoRequest, newReq, newRes, response, responseEnd, reqRelease, resRelease, connRelease, gone, Closed, b4, b5]

example : (run (accepted false) [.peek (.byte 120), .req .badLine, .resp .close]).lost = 1 := by decide

end Fly.Conn
