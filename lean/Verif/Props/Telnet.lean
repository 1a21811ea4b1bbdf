import Verif.Lemma.Telnet

/-
C35, C36: the telnet protocol engine.
-/
namespace Conman
open Spec Tel

/-- C35 (partial). Whatever telnet elements the terminal server sends, in
whatever split into reads: the data passed on is exactly the application data of
the stream and the decoder is back in its ground state.
Missing: subnegotiation parameters containing 0xFF, for which the claim is
false (`C35_iac_in_subnegotiation_leaks`). -/
theorem C35_telnet_decode_partial (toks : List TelTok) (chunks : List (List UInt8))
    (hok : ∀ t ∈ toks, t.ok)
    (hsub : ∀ body, .sub body ∈ toks → (255 : UInt8) ∉ body)
    (hchunks : chunks.flatten = toks.flatMap TelTok.enc) :
    ∃ sent, telChunks none chunks = some (none, toks.flatMap TelTok.appData, sent) :=
  ⟨_, by rw [telChunks_eq, hchunks, telRef_toks toks hok hsub]⟩

/-- Non-vacuity: data, an option request, a subnegotiation, a doubled 0xFF, cut
inside elements. -/
example : ∃ (toks : List TelTok) (chunks : List (List UInt8)),
    toks = [.data 0x61, .will 24, .sub [24, 1], .data 0xFF, .cmd 241, .data 0x62] ∧
    (∀ t ∈ toks, t.ok) ∧ (∀ body, .sub body ∈ toks → (255 : UInt8) ∉ body) ∧
    chunks = [[0x61, 255], [251], [24, 255, 250, 24, 1, 255], [240, 255], [255, 255, 241, 0x62]] ∧
    chunks.flatten = toks.flatMap TelTok.enc := by
  refine ⟨_, _, rfl, ?_, ?_, rfl, by decide⟩
  · simp only [List.mem_cons, List.not_mem_nil, or_false]
    rintro t (rfl | rfl | rfl | rfl | rfl | rfl) <;> simp [TelTok.ok]
  · intro body h
    simp only [List.mem_cons, List.not_mem_nil, or_false, reduceCtorEq, false_or] at h
    simp only [TelTok.sub.injEq] at h
    subst h; decide

/-- C35. Decoding does not depend on how the stream is split into reads. -/
theorem C35_split_independent (iac : Option UInt8) (chunks : List (List UInt8)) :
    telChunks iac chunks = telChunks iac [chunks.flatten] := by
  simp [telChunks_eq]

/-- C35. From the state of a new console object no byte stream can drive the
decoder into its invalid state (where the daemon would exit). -/
theorem C35_never_fatal (chunks : List (List UInt8)) : ∃ r, telChunks none chunks = some r := by
  obtain ⟨i, d, s, h, -⟩ := telRef_ok (iac := none) chunks.flatten (Or.inl rfl)
  exact ⟨_, by rw [telChunks_eq, h]⟩

/-- C35. Decoding works inside the read buffer and never enlarges the data. -/
theorem C35_no_growth (iac : Option UInt8) (src : List UInt8) (o : TelOut)
    (h : processTelnetEscapes iac src = some o) :
    o.buf.length = src.length ∧ o.len ≤ src.length := by
  have ht := telLoop_eq src 0 0 iac [] (by omega) (by omega)
  unfold processTelnetEscapes at h
  rw [h, List.drop_zero] at ht
  cases hr : telRef iac src with
  | none => simp [hr, TelOut.trip] at ht
  | some r =>
    simp only [hr, TelOut.trip] at ht
    exact ⟨ht.2.2.2.2, ht.2.2.2.1⟩

example : (processTelnetEscapes none [0x61, 255, 255, 255, 241, 0x62]).isSome := by
  obtain ⟨r, h⟩ := C35_never_fatal [[0x61, 255, 255, 255, 241, 0x62]]
  unfold telChunks at h
  split at h <;> simp_all

/-- Finding (refutes C35 as stated). A subnegotiation whose parameters contain
0xFF, encoded as RFC 855 demands, leaks parameter bytes into the console data:
the doubled 0xFF ends the subnegotiation for the decoder. -/
theorem C35_iac_in_subnegotiation_leaks (pre post : List UInt8)
    (hpre : (255 : UInt8) ∉ pre) (hpost : (255 : UInt8) ∉ post) :
    telChunks none [(TelTok.sub (pre ++ 255 :: post)).enc] = some (none, 255 :: post, []) ∧
    (TelTok.sub (pre ++ 255 :: post)).appData = [] := by
  refine ⟨?_, rfl⟩
  have e : (TelTok.sub (pre ++ 255 :: post)).enc =
      [255, 250] ++ (pre ++ ([255, 255] ++ (post ++ [255, 240]))) := by
    simp [TelTok.enc, flatMap_iacDouble _ hpre, flatMap_iacDouble _ hpost, iacDouble]
  have h1 : telRef none [255, 250] = some (some SB, [], []) := by decide
  have h2 : telRef (some SB) [255, 255] = some (none, [255], []) := by decide
  have h3 : telRef none [255, 240] = some (none, [], []) := by decide
  have h4 : ∀ p : List UInt8, (255 : UInt8) ∉ p → telRef none p = some (none, p, []) := by
    intro p hp
    have := telRef_toks (p.map .data) (by intro t ht; simp at ht; obtain ⟨a, -, rfl⟩ := ht; trivial)
      (by intro b hb; simp at hb)
    have e1 : (p.map TelTok.data).flatMap TelTok.enc = p := by
      rw [List.flatMap_map]; exact flatMap_iacDouble p hp
    have e2 : (p.map TelTok.data).flatMap TelTok.appData = p := by
      rw [List.flatMap_map]; simp [TelTok.appData]
    have e3 : (p.map TelTok.data).flatMap TelTok.reply = [] := by
      rw [List.flatMap_map]; simp [TelTok.reply]
    rw [e1, e2, e3] at this
    simpa using this
  rw [telChunks_eq, List.flatten_singleton, e]
  rw [telRef_append, h1]
  simp only [telRef_sub pre _ hpre]
  rw [telRef_append, h2]
  simp only
  rw [telRef_append, h4 post hpost]
  simp only [h3, telPre]
  simp

example : (255 : UInt8) ∉ [(24 : UInt8), 0] := by decide

/-- C36. The replies sent are exactly: one refusal per request for an
unsupported option, in order, and nothing else. -/
theorem C36_replies (toks : List TelTok) (chunks : List (List UInt8))
    (hok : ∀ t ∈ toks, t.ok)
    (hsub : ∀ body, .sub body ∈ toks → (255 : UInt8) ∉ body)
    (hchunks : chunks.flatten = toks.flatMap TelTok.enc) :
    ∃ data, telChunks none chunks =
      some (none, data, (toks.flatMap TelTok.reply).flatMap TelTok.enc) :=
  ⟨_, by rw [telChunks_eq, hchunks, telRef_toks toks hok hsub]⟩

/-- Non-vacuity: WILL 24 is refused, WILL ECHO, DO SGA are not, DO 255 is. -/
example : ([.will 24, .will 1, .do_ 3, .wont 0, .dont 9, .do_ 255] : List TelTok).flatMap TelTok.reply
    = [.dont 24, .wont 255] := by decide

/-- C36. Whatever bytes are received, in whatever decoder state, all that is
sent in reply are WONT and DONT; a peer running the same code that receives
these replies, in whatever split, answers nothing. So a reply is never
answered and negotiation cannot loop. -/
theorem C36_replies_end_negotiation (iac i : Option UInt8) (chunks chunks' : List (List UInt8))
    (data sent : List UInt8) (h : telChunks iac chunks = some (i, data, sent))
    (hpeer : chunks'.flatten = sent) :
    (∃ ts : List TelTok, sent = ts.flatMap TelTok.enc ∧ ∀ t ∈ ts, ∃ o, t = .wont o ∨ t = .dont o) ∧
    telChunks none chunks' = some (none, [], []) := by
  rw [telChunks_eq] at h
  obtain ⟨ts, e, -, m⟩ := telRef_reply h
  refine ⟨⟨ts, e, m⟩, ?_⟩
  rw [telChunks_eq, hpeer, e, telRef_toks ts]
  · have : ts.flatMap TelTok.appData = [] ∧ ts.flatMap TelTok.reply = [] := by
      clear e h hpeer
      constructor <;>
      · rw [List.flatMap_eq_nil_iff]
        intro t ht
        obtain ⟨o, rfl | rfl⟩ := m t ht <;> rfl
    simp [this]
  · intro t ht
    obtain ⟨o, rfl | rfl⟩ := m t ht <;> trivial
  · intro b hb
    obtain ⟨o, h | h⟩ := m _ hb <;> simp at h

/-- Non-vacuity: two refusals. -/
example : ∃ i data, telChunks none [[255, 251, 24, 255, 253], [24]] =
    some (i, data, [255, 254, 24, 255, 252, 24]) :=
  ⟨none, [], by rw [telChunks_eq]; decide⟩

/-- C36. A peer running the same code answers the initial negotiation with
exactly one refusal, of echo. -/
theorem C36_hello (chunks : List (List UInt8)) (h : chunks.flatten = telHello) :
    telChunks none chunks = some (none, [], (TelTok.wont 1).enc) := by
  rw [telChunks_eq, h]; decide

end Conman
