import Verif.Request.Lemmas
import Verif.Buffer.Props

/-! # Properties of request-line parsing -/

namespace Fly.Req
open Buffer (Op init run specRun Valid room)

/-! ## C21: what the server extracts -/

/-- **C21 (origin form, every method but CONNECT).** For every method, path, query and version the line
written in the RFC 7230 grammar yields exactly these.  Missing: queries that begin with a percent-encoded
byte (see `C21_leading_percent_of_query_cut_refuted`) and empty queries (`C21_empty_query_is_none`), CONNECT,
absolute-form and asterisk-form. -/
theorem C21_origin_form_round_trip_partial (m : Method) (p : Bytes) (q : Option Bytes) (v : Version)
    (hm : m ≠ .connect) (hp : IsPath p)
    (hq : ∀ x, q = some x → x ≠ [] ∧ Chars QueryByte x ∧ x.head? ≠ some 37) :
    parseReqline (requestLine m (p ++ queryText q) v) = .ok ⟨m, p, q, v⟩ := by
  have hqp : QueryPart (queryText q) q := by
    cases q with
    | none => exact .absent
    | some x =>
      obtain ⟨h1, h2, h3⟩ := hq x rfl
      cases x with
      | nil => exact absurd rfl h1
      | cons c x => exact .plain c x (by simpa using h3) h2
  refine (parse_iff _ _).2 ⟨methodName m ++ b!" " ++ (p ++ queryText q) ++ b!" HTTP/" ++ versionNumber v, [], ?_,
    0, 0, 1, p ++ queryText q, .origin m p _ q hm hp hqp, ?_⟩
  · simp [requestLine]
  · simp

example : parseReqline b!"GET /a/%20b?x=1&y=/? HTTP/1.1\r\n" = .ok ⟨.get, b!"/a/%20b", some b!"x=1&y=/?", .v1_1⟩ := by
  decide +kernel

example : IsPath b!"/a/%20b" :=
  ⟨.byte _ _ (by simp [PathByte]) <| .byte _ _ (by simp [PathByte, RfcPchar, RfcUnreserved]) <|
    .byte _ _ (by simp [PathByte]) <| .pct _ _ _ (by simp [RfcHex]) (by simp [RfcHex]) <|
    .byte _ _ (by simp [PathByte, RfcPchar, RfcUnreserved]) .nil, rfl⟩

/-- C21 fails for every query that begins with a percent-encoded byte: its "%" and first digit are lost. -/
theorem C21_leading_percent_of_query_cut_refuted (m : Method) (p q : Bytes) (h1 h2 : Nat) (v : Version)
    (hm : m ≠ .connect) (hp : IsPath p) (hh1 : RfcHex h1) (hh2 : RfcHex h2) (hq : Chars QueryByte q) :
    parseReqline (requestLine m (p ++ queryText (some (37 :: h1 :: h2 :: q))) v) = .ok ⟨m, p, some (h2 :: q), v⟩ := by
  refine (parse_iff _ _).2 ⟨methodName m ++ b!" " ++ (p ++ queryText (some (37 :: h1 :: h2 :: q))) ++ b!" HTTP/" ++ versionNumber v,
    [], ?_, 0, 0, 1, _, .origin m p _ _ hm hp (.cut h1 h2 q hh1 hh2 hq), ?_⟩
  · simp [requestLine]
  · simp [queryText]

example : parseReqline b!"GET /?%41b HTTP/1.1\r\n" = .ok ⟨.get, b!"/", some b!"1b", .v1_1⟩ := by decide +kernel

/-- An empty query is reported as no query. -/
theorem C21_empty_query_is_none (m : Method) (p : Bytes) (v : Version) (hm : m ≠ .connect) (hp : IsPath p) :
    parseReqline (requestLine m (p ++ queryText (some [])) v) = .ok ⟨m, p, none, v⟩ := by
  refine (parse_iff _ _).2 ⟨methodName m ++ b!" " ++ (p ++ queryText (some [])) ++ b!" HTTP/" ++ versionNumber v,
    [], ?_, 0, 0, 1, _, .origin m p _ _ hm hp .lone, ?_⟩
  · simp [requestLine]
  · simp [queryText]

/-- CONNECT: the authority is accepted only with user information, and never reported: the path is empty. -/
theorem C21_connect_target_is_lost_refuted (u h port : Bytes) (v : Version) (h1 : u ≠ []) (h2 : Chars UserByte u)
    (h3 : h ≠ []) (h4 : ∀ c ∈ h, AlNum c) (h5 : port ≠ []) (h6 : ∀ c ∈ port, 48 ≤ c ∧ c ≤ 57) :
    parseReqline (requestLine .connect (u ++ b!"@" ++ h ++ b!":" ++ port) v) = .ok ⟨.connect, [], none, v⟩ := by
  refine (parse_iff _ _).2 ⟨methodName .connect ++ b!" " ++ (u ++ b!"@" ++ h ++ b!":" ++ port) ++ b!" HTTP/" ++ versionNumber v,
    [], ?_, 0, 0, 1, _, .authority u h port h1 h2 h3 h4 h5 h6, ?_⟩
  · simp [requestLine]
  · simp

example : parseReqline b!"CONNECT me@host:80 HTTP/1.1\r\n" = .ok ⟨.connect, [], none, .v1_1⟩ := by decide +kernel

theorem bad_of_not {line : Bytes} (h : ∀ r, parseReqline line ≠ .ok r) : parseReqline line = .bad := by
  cases hp : parseReqline line with
  | ok r => exact absurd hp (h r)
  | bad => rfl
  | crash => exact absurd hp (parse_no_crash line)

/-- A CONNECT request in the RFC 7231 form `host:port`, without user information, is answered 400. -/
theorem C21_connect_host_port_refused_refuted (x : Bytes) (v : Version) (h64 : 64 ∉ x) (h32 : 32 ∉ x) (hne : x ≠ []) :
    parseReqline (requestLine .connect x v) = .bad := by
  apply bad_of_not
  intro r hr
  have hx : x.head? ≠ some 32 := by
    cases x with
    | nil => simp
    | cons c x => simp at h32 ⊢; omega
  have hr' : parseReqline (methodName .connect ++ 32 :: (x ++ 32 :: (b!"HTTP/" ++ (versionNumber v ++ b!"\r\n")))) = .ok r := by
    rw [← hr]; simp [requestLine]
  obtain ⟨_, ht⟩ := accepted_target .connect x _ r hx hne h32 hr'
  generalize r.uri = u at ht
  generalize r.query = q at ht
  cases ht with
  | origin => rename_i hm _ _; exact hm rfl
  | authority => simp at h64

example : parseReqline b!"CONNECT host:80 HTTP/1.1\r\n" = .bad := by decide +kernel

/-- Every target that does not begin with "/" is refused for every other method: absolute-form
(`GET http://host/`) and asterisk-form (`OPTIONS *`), which RFC 7230 5.3 requires servers to accept. -/
theorem C21_absolute_and_asterisk_form_refused_refuted (m : Method) (x : Bytes) (v : Version) (hm : m ≠ .connect)
    (hx : x.head? ≠ some 47) (h32 : 32 ∉ x) (hne : x ≠ []) : parseReqline (requestLine m x v) = .bad := by
  apply bad_of_not
  intro r hr
  have hx' : x.head? ≠ some 32 := by
    cases x with
    | nil => simp
    | cons c x => simp at h32 ⊢; omega
  have hr' : parseReqline (methodName m ++ 32 :: (x ++ 32 :: (b!"HTTP/" ++ (versionNumber v ++ b!"\r\n")))) = .ok r := by
    rw [← hr]; simp [requestLine]
  obtain ⟨_, ht⟩ := accepted_target m x _ r hx' hne h32 hr'
  generalize r.uri = u at ht
  generalize r.query = q at ht
  cases ht with
  | origin =>
    rename_i qt _ hp _
    apply hx
    cases hu : u with
    | nil => rw [hu] at hp; simp [IsPath] at hp
    | cons c u => rw [hu] at hp; simpa [IsPath] using hp.2
  | authority => exact hm rfl

example : parseReqline b!"GET http://host/ HTTP/1.1\r\n" = .bad ∧ parseReqline b!"OPTIONS * HTTP/1.1\r\n" = .bad := by
  decide +kernel

/-! ## C22: what is refused -/

/-- **C22 (exact language).** A line is taken as a request exactly if it consists of a method, spaces, a
target, spaces, any number of copies of "HTTP", "/", a version and CRLF; every other byte string is answered
400 (never a crash, never accepted with other values).  The difference to RFC 7230, `Accepted` instead of the
RFC grammar, is refuted below. -/
theorem C22_accepted_iff_partial (line : Bytes) :
    (∀ r, parseReqline line = .ok r ↔ ∃ l tl, line = l ++ b!"\r\n" ++ tl ∧ Accepted l r) ∧
    ((¬ ∃ l tl r, line = l ++ b!"\r\n" ++ tl ∧ Accepted l r) → parseReqline line = .bad) := by
  have h : ∀ r, parseReqline line = .ok r ↔ ∃ l tl, line = l ++ b!"\r\n" ++ tl ∧ Accepted l r := by
    intro r
    rw [parse_iff]
    simp
  refine ⟨h, fun hn => bad_of_not fun r hr => ?_⟩
  obtain ⟨l, tl, h1, h2⟩ := (h r).1 hr
  exact hn ⟨l, tl, r, h1, h2⟩

/-- The server takes request lines with any number of spaces, and with the protocol name missing or
repeated, as valid. -/
theorem C22_spaces_and_protocol_name_refuted (m : Method) (p : Bytes) (v : Version) (k j n : Nat) (hm : m ≠ .connect)
    (hp : IsPath p) :
    parseReqline (methodName m ++ List.replicate (k + 1) 32 ++ p ++ List.replicate (j + 1) 32 ++
      (List.replicate n b!"HTTP").flatten ++ b!"/" ++ versionNumber v ++ b!"\r\n") = .ok ⟨m, p, none, v⟩ := by
  refine (parse_iff _ _).2 ⟨_, [], rfl, k, j, n, p, ?_, rfl⟩
  have := Target.origin m p [] none hm hp .absent
  simpa using this

example : parseReqline b!"GET   /  /1.1\r\n" = .ok ⟨.get, b!"/", none, .v1_1⟩ ∧
    parseReqline b!"GET / HTTPHTTP/1.1\r\n" = .ok ⟨.get, b!"/", none, .v1_1⟩ ∧
    parseReqline b!"GET / HTTP/1.0\r\n" = .bad ∧ parseReqline b!"GET / HTT/1.1\r\n" = .bad := by decide +kernel

/-! ## C21 and C22 on the connection: any arrival of the bytes -/

/-- However the bytes arrive, the first CR-free line is parsed alone, the next request starts right behind
it, malformed lines give 400 and overlong ones 414.  `rest ≠ [] ∨ 0 < room b`: the receive buffer is not
filled to the brim by the CRLF itself. -/
theorem C22_connection_request_line (mem : Nat → Bytes) (hmem : ∀ n, (mem n).length = n) (chainMax perLen : Nat)
    (hpl : 0 < perLen) (hc : 0 < chainMax) (ops : List Op) (line rest : Bytes)
    (hq : specRun [] ops = line ++ b!"\r\n" ++ rest) (hl : 13 ∉ line) (b0 b : Buffer.Buf)
    (h0 : init mem 1 chainMax perLen = some b0) (hv : Valid mem b0 [] ops) (hr : run mem b0 ops = some b)
    (hroom : rest ≠ [] ∨ 0 < room b) :
    (8000 ≤ line.length + 2 → requestOperation b = .err 414) ∧
    (line.length + 2 < 8000 → (∀ r, ¬ Accepted line r) → requestOperation b = .err 400) ∧
    (line.length + 2 < 8000 → ∀ r, Accepted line r →
      ∃ b', run mem b0 (ops ++ [.consume (line.length + 2)]) = some b' ∧ requestOperation b = .ok r b') := by
  have hq' : specRun [] ops = line ++ 13 :: 10 :: rest := by rw [hq]; simp
  obtain ⟨b0', h0', hh⟩ := Buffer.C05_request_line_split mem hmem chainMax perLen hpl hc ops line rest hq' hl
  obtain rfl : b0 = b0' := by rw [h0] at h0'; exact Option.some.inj h0'
  obtain ⟨b1, hr1, ht⟩ := hh hv
  obtain rfl : b = b1 := by rw [hr] at hr1; exact Option.some.inj hr1
  have ht := ht hroom
  have hne : ∀ r, parseReqline (line ++ [13, 10]) = .ok r → Accepted line r := fun r h => parse_sound line r hl h
  refine ⟨fun h8 => ?_, fun h8 hn => ?_, fun h8 r ha => ?_⟩
  · rw [if_pos h8] at ht
    simp [requestOperation, ht]
  · rw [if_neg (by omega)] at ht
    have : parseReqline (line ++ [13, 10]) = .bad := bad_of_not fun r h => hn r (hne r h)
    simp [requestOperation, ht, this]
  · rw [if_neg (by omega)] at ht
    have hp : parseReqline (line ++ [13, 10]) = .ok r := parse_complete line r ha []
    obtain ⟨b0'', h0'', hw, hcont, hpl2, _⟩ := Buffer.init_one mem hmem chainMax perLen hpl hc
    obtain rfl : b0 = b0'' := by rw [h0] at h0''; exact Option.some.inj h0''
    obtain ⟨b2, hr2, hbw, hbc, _, _⟩ := Buffer.run_wf mem hmem ops b0 (by omega) hw (by rw [hcont]; exact hv)
    obtain rfl : b = b2 := by rw [hr] at hr2; exact Option.some.inj hr2
    rw [hcont, hq'] at hbc
    have hlen : (line ++ [13, 10]).length = line.length + 2 := by simp
    obtain ⟨b', hb', _⟩ := Buffer.release_wf b hbw (line.length + 2) (by rw [hbc]; simp) (fun hr0 => by
      rcases hroom with h | h
      · have := List.length_pos_iff.2 h
        rw [hbc]; simp; omega
      · omega)
    refine ⟨b', ?_, ?_⟩
    · have hrun : ∀ (ops : List Op) (x y : Buffer.Buf), run mem x ops = some y →
          run mem x (ops ++ [.consume (line.length + 2)]) = Buffer.release y (line.length + 2) := by
        intro ops
        induction ops with
        | nil =>
          intro x y h
          obtain rfl : x = y := Option.some.inj h
          simp only [List.nil_append, Buffer.run, Buffer.step]
          cases Buffer.release x (line.length + 2) <;> rfl
        | cons o ops ih =>
          intro x y h
          simp only [List.cons_append, Buffer.run] at h ⊢
          cases hs : Buffer.step mem x o with
          | none => rw [hs] at h; simp at h
          | some z => rw [hs] at h; exact ih z y h
      rw [hrun ops b0 b hr, hb']
    · simp only [requestOperation, ht, hp, hlen, hb']

/-- **C21 on the connection.** The two parts together: a well-formed request followed by anything yields its
method, path, query and version and leaves exactly the bytes behind it. -/
theorem C21_connection_round_trip_partial (mem : Nat → Bytes) (hmem : ∀ n, (mem n).length = n) (chainMax perLen : Nat)
    (hpl : 0 < perLen) (hc : 0 < chainMax) (ops : List Op) (m : Method) (p : Bytes) (q : Option Bytes) (v : Version) (rest : Bytes)
    (hm : m ≠ .connect) (hp : IsPath p) (hqq : ∀ x, q = some x → x ≠ [] ∧ Chars QueryByte x ∧ x.head? ≠ some 37)
    (hq : specRun [] ops = requestLine m (p ++ queryText q) v ++ rest)
    (hlen : (requestLine m (p ++ queryText q) v).length < 8000) (b0 b : Buffer.Buf)
    (h0 : init mem 1 chainMax perLen = some b0) (hv : Valid mem b0 [] ops) (hr : run mem b0 ops = some b)
    (hroom : rest ≠ [] ∨ 0 < room b) :
    ∃ b', run mem b0 (ops ++ [.consume (requestLine m (p ++ queryText q) v).length]) = some b' ∧
      requestOperation b = .ok ⟨m, p, q, v⟩ b' := by
  have hqp : QueryPart (queryText q) q := by
    cases q with
    | none => exact .absent
    | some x =>
      obtain ⟨h1, h2, h3⟩ := hqq x rfl
      cases x with
      | nil => exact absurd rfl h1
      | cons c x => exact .plain c x (by simpa using h3) h2
  have hp13 : 13 ∉ p := chars_no (by simp [PathByte, RfcPchar, RfcUnreserved, RfcSubDelims]) (by decide) (by simp [RfcHex]) hp.1
  have hq13 : 13 ∉ queryText q :=
    queryPart_no 13 (by simp [QueryByte, RfcPchar, RfcUnreserved, RfcSubDelims]) (by decide) (by simp [RfcHex]) hqp
  have hm13 : 13 ∉ methodName m := by cases m <;> decide
  have hv13 : 13 ∉ versionNumber v := by cases v <;> decide
  have e : requestLine m (p ++ queryText q) v =
      (methodName m ++ b!" " ++ (p ++ queryText q) ++ b!" HTTP/" ++ versionNumber v) ++ b!"\r\n" := by simp [requestLine]
  rw [e] at hq hlen ⊢
  have hl2 : ∀ l : Bytes, (l ++ b!"\r\n").length = l.length + 2 := by intro l; simp
  rw [hl2] at hlen ⊢
  refine (C22_connection_request_line mem hmem chainMax perLen hpl hc ops _ rest hq ?_ b0 b h0 hv hr hroom).2.2 hlen ⟨m, p, q, v⟩
    ⟨0, 0, 1, p ++ queryText q, .origin m p _ q hm hp hqp, by simp⟩
  simp [hp13, hq13, hm13, hv13]

example :
    let mem := fun n => List.replicate n 0
    ((init mem 1 9 7).bind fun b => run mem b [.recv b!"GET /", .recv b!"a?", .recv b!"b HTTP/", .recv b!"1.1\r\nHo"]).map
      (fun b => match requestOperation b with | .ok r _ => some r | _ => none) = some (some ⟨.get, b!"/a", some b!"b", .v1_1⟩) := by
  decide +kernel

/-! ## C23: 414 -/

/-- **C23.** For every arrival schedule, a CR-free request line that has its CRLF is answered 414 exactly if
it is 8000 bytes or longer.  Missing: lines whose CRLF does not come (refuted below). -/
theorem C23_414_iff_8000_partial (mem : Nat → Bytes) (hmem : ∀ n, (mem n).length = n) (chainMax perLen : Nat)
    (hpl : 0 < perLen) (hc : 0 < chainMax) (ops : List Op) (line rest : Bytes)
    (hq : specRun [] ops = line ++ b!"\r\n" ++ rest) (hl : 13 ∉ line) (b0 b : Buffer.Buf)
    (h0 : init mem 1 chainMax perLen = some b0) (hv : Valid mem b0 [] ops) (hr : run mem b0 ops = some b)
    (hroom : rest ≠ [] ∨ 0 < room b) :
    requestOperation b = .err 414 ↔ 8000 ≤ (line ++ b!"\r\n").length := by
  have hl2 : (line ++ b!"\r\n").length = line.length + 2 := by simp
  rw [hl2]
  obtain ⟨h1, h2, h3⟩ := C22_connection_request_line mem hmem chainMax perLen hpl hc ops line rest hq hl b0 b h0 hv hr hroom
  constructor
  · intro h
    by_cases h8 : 8000 ≤ line.length + 2
    · exact h8
    · exfalso
      by_cases ha : ∃ r, Accepted line r
      · obtain ⟨r, ha⟩ := ha
        obtain ⟨b', _, hb⟩ := h3 (by omega) r ha
        rw [hb] at h; simp at h
      · have := h2 (by omega) (fun r hr => ha ⟨r, hr⟩)
        rw [this] at h; simp at h
  · exact h1

/-- A request line that never ends is not answered 414 however long it is: as long as no CR is in the
buffer the server waits for more. -/
theorem C23_endless_line_gets_no_414_refuted (n : Nat) (hn : 0 < n) :
    requestOperation ⟨[⟨List.replicate n 65 ++ [0], 0, n, .half⟩], 1, n + 1, 1⟩ = .notReady := by
  have hfp : Buffer.firstPtr ⟨[⟨List.replicate n 65 ++ [0], 0, n, .half⟩], 1, n + 1, 1⟩ =
      some ⟨List.replicate n 65 ++ [0], []⟩ := by
    cases n with
    | zero => omega
    | succ n =>
      simp [Buffer.firstPtr, Buffer.Chunk.region, List.replicate_succ]
  have hnone := Buffer.strstr_none ⟨List.replicate n 65 ++ [0], []⟩ ⟨by simp, by simp⟩
    (by simp [Buffer.Cursor.flat, List.mem_replicate]) (Buffer.Cursor.flat ⟨List.replicate n 65 ++ [0], []⟩).length
  simp only [requestOperation, Buffer.takeLine, hfp, Buffer.findAfter, hnone]

/-! ## C26: names -/

/-- **C26 (HTTP/1).** A token is recognised as a method exactly if it is that method's name, and as a version
exactly if it is that version's number, whatever stands behind it in memory. -/
theorem C26_method_and_version_exact_partial (tok tail : Bytes) :
    (∀ m, matchMethodLen (tok ++ tail) tok.length = some m ↔ tok = methodName m) ∧
    (∀ v, matchVersionLen (tok ++ tail) tok.length = some v ↔ tok = versionNumber v) := by
  constructor
  · intro m
    rw [matchMethodLen_iff, List.take_left']
    · constructor
      · exact fun h => h.2
      · exact fun h => ⟨by rw [h], h⟩
    · rfl
  · intro m
    rw [matchVersionLen_iff, List.take_left']
    · constructor
      · exact fun h => h.2
      · exact fun h => ⟨by rw [h], h⟩
    · rfl

example : matchMethodLen b!"GET /" 3 = some .get ∧ matchMethodLen b!"GETX /" 4 = none ∧ matchMethodLen b!"GET" 2 = none ∧
    matchMethodLen b!"get" 3 = none ∧ matchVersionLen b!"1.1\r" 3 = some .v1_1 ∧ matchVersionLen b!"1.0\r" 3 = none := by decide

/-- For HTTP/2 the `:method` value needs only to begin with a method name. -/
theorem C26_http2_method_prefix_refuted (m : Method) (s : Bytes) : matchMethodName (methodName m ++ s) = some m := by
  cases m <;> simp [matchMethodName, methods, methodName, List.isPrefixOf]

/-- The ALPN name "h" (a proper prefix of "h2" and of "http/1.1") selects HTTP/2, and a name that continues
"h2" behind a NUL is compared with memory behind the table entry. -/
theorem C26_alpn_prefix_refuted : matchAlpn b!"h" = some (some .v2) ∧ matchAlpn (b!"h2" ++ [0, 1]) = none := by decide

/-- ALPN names with other bytes than a prefix of the two known ones (or nothing) are not recognised. -/
theorem C26_alpn_recognised_is_prefix (name : Bytes) (v : Version) (h : matchAlpn name = some (some v)) :
    (v = .v2 ∧ name <+: b!"h2" ++ [0]) ∨ (v = .v1_1 ∧ name <+: b!"http/1.1" ++ [0]) := by
  have hc : ∀ d n : Bytes, alpnCmp d n = some true → n <+: d := by
    intro d
    induction d with
    | nil => intro n h; cases n <;> simp_all [alpnCmp]
    | cons a d ih =>
      intro n h
      cases n with
      | nil => exact List.nil_prefix
      | cons x n =>
        simp only [alpnCmp] at h
        split at h
        · rename_i e; subst e
          exact List.cons_prefix_cons.2 ⟨rfl, ih n h⟩
        · simp at h
  unfold matchAlpn at h
  split at h
  · rename_i hn
    obtain rfl : Version.v1_1 = v := by simpa using h
    exact Or.inr ⟨rfl, by rw [hn]; exact List.nil_prefix⟩
  · split at h
    · simp at h
    · rename_i hx
      obtain rfl : Version.v2 = v := by simpa using h
      exact Or.inl ⟨rfl, hc _ _ hx⟩
    · split at h
      · simp at h
      · rename_i hx
        obtain rfl : Version.v1_1 = v := by simpa using h
        exact Or.inr ⟨rfl, hc _ _ hx⟩
      · simp at h

/-! ## C52: character classes -/

/-- **C52 (paths).** In a request line, a path is accepted exactly if it is a sequence of pchar, "/" and
percent-encoded bytes of RFC 3986, and is then reported unchanged. -/
theorem C52_path_accepted_iff (m : Method) (v : Version) (p : Bytes) (hm : m ≠ .connect) (hs : p.head? = some 47)
    (h63 : 63 ∉ p) (h32 : 32 ∉ p) :
    (∃ r, parseReqline (requestLine m p v) = .ok r) ↔ Chars PathByte p := by
  constructor
  · rintro ⟨r, hr⟩
    have hr' : parseReqline (methodName m ++ 32 :: (p ++ 32 :: (b!"HTTP/" ++ (versionNumber v ++ b!"\r\n")))) = .ok r := by
      rw [← hr]; simp [requestLine]
    obtain ⟨_, ht⟩ := accepted_target m p _ r (by rw [hs]; simp) (by intro e; rw [e] at hs; simp at hs) h32 hr'
    generalize r.uri = u at ht
    generalize r.query = q at ht
    cases ht with
    | origin =>
      rename_i qt hmm hp hq
      cases hq with
      | absent => rw [List.append_nil]; exact hp.1
      | lone => simp at h63
      | plain => simp at h63
      | cut => simp at h63
    | authority => exact absurd rfl hm
  · intro h
    have := C21_origin_form_round_trip_partial m p none v hm ⟨h, hs⟩ (by simp)
    simp only [queryText, List.append_nil] at this
    exact ⟨_, this⟩

example : ¬ Chars PathByte b!"/a%2" ∧ parseReqline b!"GET /a%2 HTTP/1.1\r\n" = .bad ∧
    parseReqline b!"GET /a%zz HTTP/1.1\r\n" = .bad ∧ parseReqline b!"GET /a%2F HTTP/1.1\r\n" = .ok ⟨.get, b!"/a%2F", none, .v1_1⟩ := by
  refine ⟨?_, by decide +kernel, by decide +kernel, by decide +kernel⟩
  intro h
  cases h with
  | byte _ _ _ h => cases h with
    | byte _ _ _ h => cases h with
      | byte _ _ h => simp [PathByte, RfcPchar, RfcUnreserved, RfcSubDelims] at h

/-- **C52 (single characters).** The parser's classes are those of RFC 3986. -/
theorem C52_classes (c : Nat) (r : Bytes) :
    (pchar c r = .one ↔ RfcPchar c) ∧
    (pchar c r = .three ↔ c = 37 ∧ ∃ h1 h2 r', r = h1 :: h2 :: r' ∧ RfcHex h1 ∧ RfcHex h2) ∧
    (queryChar c r = .one ↔ QueryByte c) ∧ (userinfo c r = .one ↔ UserByte c) ∧
    (hexdigit c = true ↔ RfcHex c) :=
  ⟨pchar_one_iff c r, pchar_three_iff c r, query_one_iff c r, user_one_iff c r, hexdigit_iff c⟩

/-- RFC 7230 3.2.6: tchar. -/
def RfcTchar (c : Nat) : Prop :=
  c ∈ b!"!#$%&'*+-.^_`|~" ∨ (48 ≤ c ∧ c ≤ 57) ∨ (65 ≤ c ∧ c ≤ 90) ∨ (97 ≤ c ∧ c ≤ 122)

/-- The token class (methods, header field names) is not that of RFC 7230: every delimiter but ";" is taken as
a token character too. -/
theorem C52_token_class_refuted (c : Nat) :
    (tchar c = true ↔ 33 ≤ c ∧ c ≤ 126 ∧ c ≠ 59) ∧ (RfcTchar c → tchar c = true) := by
  constructor
  · simp [tchar, numeral, alpha, vchar]; omega
  · intro h
    simp [RfcTchar] at h
    simp [tchar, numeral, alpha, vchar]; omega

example : tchar 58 = true ∧ tchar 40 = true ∧ tchar 34 = true ∧ ¬ RfcTchar 58 := by
  refine ⟨by decide, by decide, by decide, by simp [RfcTchar]⟩

/-! ## C68: HTTP/2 targets -/

/-- **C68 (without percent-encoding).** For every path and non-empty query without percent-encoded bytes the
`:path` value is split at the first "?". -/
theorem C68_http2_path_split_partial (m : Method) (p : Bytes) (q : Option Bytes) (hs : p.head? = some 47)
    (hp : ∀ c ∈ p, PathByte c) (hq : ∀ x, q = some x → x ≠ [] ∧ ∀ c ∈ x, QueryByte c) :
    target2 m (p ++ queryText q) = .ok p q := by
  have hne : p ≠ [] := by intro e; rw [e] at hs; simp at hs
  have h47 : (p ++ queryText q).head? = some 47 := by
    cases p with
    | nil => simp at hne
    | cons c p => simpa using hs
  rw [target2_origin m _ h47]
  have := t2Origin_plain (p ++ queryText q) (p ++ queryText q ++ [0]) q hq p [] ((p ++ queryText q).length + 1) hp
    (by simp [hne]) (by simp) (by simp) rfl
  simpa using this

example : target2 .get b!"/a/b?x=1" = .ok b!"/a/b" (some b!"x=1") := by decide +kernel

/-- Every HTTP/2 request whose `:path` contains a percent-encoded byte, in the path or in the query, is
refused: the three bytes are counted as one, so the parser runs onto the terminator. -/
theorem C68_http2_percent_refused_refuted (m : Method) (p q : Bytes) (hs : p.head? = some 47) (hp : Chars PathByte p)
    (hq : Chars QueryByte q) (h : 37 ∈ p ∨ 37 ∈ q) :
    (37 ∈ p → target2 m p = .bad) ∧ target2 m (p ++ queryText (some q)) = .bad := by
  have hne : p ≠ [] := by intro e; rw [e] at hs; simp at hs
  have h47 : ∀ x, (p ++ x).head? = some 47 := by
    intro x
    cases p with
    | nil => simp at hne
    | cons c p => simpa using hs
  constructor
  · intro h37
    rw [target2_origin m _ hs]
    have := t2Origin_pct p (p ++ [0]) [] (Or.inl rfl) p hp (by simpa using h37) (p.length + 1) (by simp)
    simpa using this
  · rw [target2_origin m _ (h47 _)]
    have := t2Origin_pct (p ++ queryText (some q)) (p ++ queryText (some q) ++ [0]) (queryText (some q))
      (Or.inr ⟨q, rfl, hq⟩) p hp (by simp [queryText]; exact h) ((p ++ queryText (some q)).length + 1) (by simp)
    simpa using this

example : target2 .get b!"/a%20b" = .bad ∧ target2 .get b!"/a?x=%20" = .bad := by decide +kernel

/-- A path without escapes in front of `w`, which ends the parse at once. -/
theorem t2Origin_stops (full t w : Bytes) (n : Nat)
    (hw : ∀ f, t2Origin full t (f + 1) n w = .ok full none) (hn : 0 < n) :
    ∀ (p : Bytes) (f : Nat), (∀ c ∈ p, PathByte c) → p.length < f →
      t2Origin full t f (p.length + n : Nat) (p ++ w) = .ok full none := by
  intro p
  induction p with
  | nil =>
    intro f _ hf
    obtain ⟨g, rfl⟩ : ∃ g, f = g + 1 := ⟨f - 1, by simp at hf; omega⟩
    simpa using hw g
  | cons c p ih =>
    intro f hp hf
    obtain ⟨g, rfl⟩ : ∃ g, f = g + 1 := ⟨f - 1, by simp at hf; omega⟩
    rw [List.cons_append, t2Origin_byte _ _ _ _ _ _ (hp c (by simp)), if_neg (by simp; omega)]
    have := ih g (fun x hx => hp x (by simp [hx])) (by simp at hf; omega)
    rw [show (((c :: p).length + n : Nat) : Int) - 1 = (p.length + n : Nat) by simp; omega]
    exact this

/-- With an empty query the "?" stays in the path, so the route or file is not found; a space ends the parse
but it and everything behind it stay in the path as well, whatever the path. -/
theorem C68_http2_empty_query_refuted (m : Method) (p s : Bytes) (hs : p.head? = some 47) (hp : ∀ c ∈ p, PathByte c) :
    target2 m (p ++ [63]) = .ok (p ++ [63]) none ∧ target2 m (p ++ 32 :: s) = .ok (p ++ 32 :: s) none := by
  have h47 : ∀ x, (p ++ x).head? = some 47 := by
    intro x
    cases p with
    | nil => simp at hs
    | cons c p => simpa using hs
  constructor
  · rw [target2_origin m _ (h47 _)]
    have := t2Origin_stops (p ++ [63]) (p ++ [63] ++ [0]) [63, 0] 1
      (fun f => by rw [t2Origin_q, if_pos (by simp)]) (by omega) p ((p ++ [63]).length + 1) hp (by simp; omega)
    simpa using this
  · rw [target2_origin m _ (h47 _)]
    have h32 : ∀ r : Bytes, pchar 32 r = .no := fun r => rfl
    have := t2Origin_stops (p ++ 32 :: s) (p ++ 32 :: s ++ [0]) (32 :: s ++ [0]) (s.length + 1)
      (fun f => by rw [List.cons_append, t2Origin, h32]; rfl) (by omega) p ((p ++ 32 :: s).length + 1) hp (by simp; omega)
    simpa using this

example : target2 .get b!"/a?" = .ok b!"/a?" none ∧ target2 .get b!"/a b" = .ok b!"/a b" none := by decide +kernel

/-- **C68 (asterisk).** The HTTP/2 target `*` is taken for OPTIONS and for no other method; a target that begins with
neither a slash, an asterisk nor a space is refused for every method. -/
theorem C68_http2_asterisk_only_options (m : Method) :
    target2 m b!"*" = (if m = .options then .ok b!"*" none else .bad) ∧
    ∀ c r, c ≠ 42 → c ≠ 47 → c ≠ 32 → target2 m (c :: r) = .bad := by
  constructor
  · cases m <;> rfl
  · intro c r h1 h2 h3
    simp [target2, t2Init, h1, h2, h3]

example : target2 .options b!"*" = .ok b!"*" none ∧ target2 .get b!"*" = .bad ∧ target2 .get b!"http://h/" = .bad := by decide +kernel

end Fly.Req
