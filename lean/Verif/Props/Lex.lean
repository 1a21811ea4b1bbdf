import Verif.Lemma.LexRun

/-
C14-C17: the lexer.
-/
namespace Conman
open Spec

instance decNamesLt : ∀ a b : List UInt8, Decidable (namesLt a b)
  | [], [] => isFalse (by simp [namesLt])
  | [], _ :: _ => isTrue (by simp [namesLt])
  | _ :: _, [] => isFalse (by simp [namesLt])
  | a :: s, b :: t =>
    have := decNamesLt s t
    if h : downcase a < downcase b ∨ (downcase a = downcase b ∧ namesLt s t) then isTrue (by simpa [namesLt] using h)
    else isFalse (by simpa [namesLt] using h)

/-! ### C17 -/

/-- C17. Classification of a word by a sorted table: never outside the table, and keyword `i` exactly if it is that keyword up to case. -/
theorem C17_lookup_exact (str : List UInt8) (keys : List (List UInt8)) (hs : (0 : UInt8) ∉ str) (hk : ∀ k ∈ keys, (0 : UInt8) ∉ k)
    (hsort : keys.Pairwise namesLt) :
    ∃ t, lookupToken str keys = some t ∧ (∀ i k, keys[i]? = some k → (t = (Token.key i).code ↔ sameName str k)) ∧
      (t = Token.str.code ↔ ∀ k ∈ keys, ¬ sameName str k) := by
  rcases lookupToken_spec str keys hs hk hsort with ⟨i, k, hi, hsm, h⟩ | ⟨hn, h⟩
  · refine ⟨_, h, fun j k' hj => ⟨fun e => ?_, fun e => ?_⟩, ⟨fun e => ?_, fun e => absurd hsm (e k (List.mem_of_getElem? hi))⟩⟩
    · simp only [Token.code, lexTokOffset] at e
      have : i = j := by omega
      subst this
      rw [hi] at hj; cases hj; exact hsm
    · have hp := List.pairwise_iff_getElem.1 hsort
      obtain ⟨hi', ei⟩ := List.getElem?_eq_some_iff.1 hi
      obtain ⟨hj', ej⟩ := List.getElem?_eq_some_iff.1 hj
      have hkk : sameName k k' := Eq.trans (Eq.symm hsm) e
      have : i = j := by
        rcases Nat.lt_trichotomy i j with hlt | heq | hgt
        · have := hp i j hi' hj' hlt
          rw [ei, ej] at this
          exact absurd hkk (namesLt_not_same this)
        · exact heq
        · have := hp j i hj' hi' hgt
          rw [ei, ej] at this
          exact absurd (Eq.symm hkk) (namesLt_not_same this)
      subst this
      simp [Token.code, lexTokOffset, Int.add_comm]
    · simp only [Token.code, lexTokOffset] at e; omega
  · refine ⟨_, h, fun j k' hj => ⟨fun e => ?_, fun e => absurd e (hn k' (List.mem_of_getElem? hj))⟩, ⟨fun _ => hn, fun _ => rfl⟩⟩
    simp only [Token.code, lexStr] at e; omega

/-- C17. The tables of the programs are sorted and usable. -/
theorem C17_tables : KeysOk protoStrs ∧ ∀ ipmi, KeysOk (serverConfStrs ipmi) := by
  refine ⟨⟨by decide, by decide, by decide⟩, fun ipmi => ?_⟩
  cases ipmi <;> exact ⟨by decide, by decide, by decide⟩

example : lookupToken (bs "Monitor") protoStrs = some 268 ∧ sameName (bs "Monitor") (bs "MONITOR") ∧ protoStrs[9]? = some (bs "MONITOR") ∧
    lookupToken (bs "MONITORS") protoStrs = some 258 := by decide

/-! ### C14 and C15 -/

/-- C14 and C15. Every NUL-terminated text, whatever follows it in memory, yields in at most one call per byte (and one more) the
tokens of the grammar in `Spec/Lex.lean`, with their line numbers, the last being `LEX_EOF`. -/
theorem C14_stream (keys : List (List UInt8)) (hk : KeysOk keys) (s junk : List UInt8) (hz : (0 : UInt8) ∉ s) :
    ∃ ts, Lexes keys [] s ts ∧ ts.length ≤ s.length + 1 ∧
      lexAll keys (s.length + 1) (lexCreate (s ++ 0 :: junk)) = some (ts.map (fun x => (x.1.code, x.2.1, x.2.2))) := by
  obtain ⟨ts, h1, h2, h3⟩ := lexAll_spec hk junk (s.length + 1) (lexCreate (s ++ 0 :: junk)) [] s (by omega) rfl hz (by simp [lexCreate, newlines])
    (by simp [Seam])
  exact ⟨ts, h1, h3, h2⟩

/-- C14. A single call, from any state of the lexer: it passes skippable text and one token, and stays inside the text. -/
theorem C14_step (keys : List (List UInt8)) (hk : KeysOk keys) (l : Lex) (s junk : List UInt8) (hpos : l.pos = s ++ 0 :: junk)
    (hz : (0 : UInt8) ∉ s) :
    ∃ l' t a b r, lexNext keys l = some (l', t.code) ∧ s = a ++ b ++ r ∧ l'.pos = r ++ 0 :: junk ∧ Skips a (b ++ r) ∧ IsToken keys b r l'.text t ∧
      l'.text.length ≤ 1023 ∧ (b = [] ↔ t = .eof) ∧ l'.prev = t.code := by
  obtain ⟨a, b, r, text, t, e, ha, hb, hres⟩ := lexNext_spec hk junk l s hpos hz
  have hf := hb.facts hk
  exact ⟨_, t, a, b, r, hres, by rw [e, List.append_assoc], rfl, ha, hb, hf.2.2.2, hf.2.2.1, rfl⟩

/-- C14. The grammar leaves no choice: whatever way a text is read as skippable text followed by a token is what the call returns. -/
theorem C14_unambiguous (keys : List (List UInt8)) (hk : KeysOk keys) (l : Lex) (a b r text junk : List UInt8) (t : Token)
    (hpos : l.pos = a ++ b ++ r ++ 0 :: junk) (hz : (0 : UInt8) ∉ a ++ b ++ r) (ha : Skips a (b ++ r)) (ht : IsToken keys b r text t) :
    ∃ l', lexNext keys l = some (l', t.code) ∧ l'.pos = r ++ 0 :: junk ∧ l'.text = text :=
  ⟨_, lexNext_complete hk junk l hpos ha ht hz, rfl, rfl⟩

/-- C14. The grammar leaves no choice for a whole text either: however it is read as a sequence of tokens, these are the ones returned. -/
theorem C14_complete (keys : List (List UInt8)) (hk : KeysOk keys) (s junk : List UInt8) (hz : (0 : UInt8) ∉ s) (ts : List (Token × List UInt8 × Nat)) (h : Lexes keys [] s ts) :
    lexAll keys (s.length + 1) (lexCreate (s ++ 0 :: junk)) = some (ts.map (fun x => (x.1.code, x.2.1, x.2.2))) :=
  lexAll_complete hk junk h _ _ (by omega) rfl hz (by simp [lexCreate, newlines]) (by simp [Seam])

example : Lexes protoStrs [] (bs "# x\r\n=") [(.eol, [0x0A], 1), (.chr 0x3D, [0x3D], 2), (.eof, [], 2)] := by
  refine Lexes.step [] (bs "# x") [0x0D, 0x0A] [0x3D] [0x0A] .eol _ (.comment (bs " x") (by decide) [] _ ?_ (.nil _)) (.crlf _) (by decide)
    (Lexes.step _ [] [0x3D] [] [0x3D] (.chr 0x3D) _ (.nil _) (.chr 0x3D [] (by decide) (by decide) (fun h => absurd h (by decide))) (by decide) (Lexes.done _ [] (.nil _)))
  intro c hc
  cases hc
  exact Or.inl rfl

/-- C15. The line of each token of a stream: `before` is everything in front of it. -/
theorem C15_lines (keys : List (List UInt8)) (before s : List UInt8) (ts : List (Token × List UInt8 × Nat)) (h : Lexes keys before s ts) :
    ∀ x ∈ ts, ∃ a c, s = a ++ c ∧ x.2.2 = 1 + newlines (before ++ a) ∧
      ∃ b r, c = b ++ r ∧ IsToken keys b r x.2.1 x.1 := by
  induction h with
  | done before a ha =>
    intro x hx
    simp only [List.mem_singleton] at hx
    subst hx
    exact ⟨a, [], by simp, rfl, [], [], rfl, .eof⟩
  | step before a b r text t ts ha hb h0 hr ih =>
    intro x hx
    rcases List.mem_cons.1 hx with rfl | hx
    · exact ⟨a, b ++ r, by simp, rfl, b, r, rfl, hb⟩
    · obtain ⟨a', c, e, hl, b', r', hc, ht⟩ := ih x hx
      refine ⟨a ++ b ++ a', c, by rw [e]; simp, ?_, b', r', hc, ht⟩
      rw [hl]; simp [List.append_assoc]

/-- C15. The line reported with each token. -/
theorem C15_line_numbers (keys : List (List UInt8)) (hk : KeysOk keys) (s junk : List UInt8) (hz : (0 : UInt8) ∉ s) :
    ∃ ts : List (Token × List UInt8 × Nat),
      lexAll keys (s.length + 1) (lexCreate (s ++ 0 :: junk)) = some (ts.map (fun x => (x.1.code, x.2.1, x.2.2))) ∧
      ∀ x ∈ ts, ∃ a b r, s = a ++ b ++ r ∧ x.2.2 = 1 + newlines a ∧ IsToken keys b r x.2.1 x.1 := by
  obtain ⟨ts, h1, _, h2⟩ := C14_stream keys hk s junk hz
  refine ⟨ts, h2, fun x hx => ?_⟩
  obtain ⟨a, c, e, hl, b, r, hc, ht⟩ := C15_lines keys [] s ts h1 x hx
  exact ⟨a, b, r, by rw [e, hc, List.append_assoc], by simpa using hl, ht⟩

example : lexAll protoStrs 64 (lexCreate (bs "query # x\r\n\\\r\n\\\n console='a\"b' \"open\n+12" ++ 0 :: bs "QUIET")) =
    some [(271, bs "query", 1), (256, bs "\n", 1), (262, bs "console", 4), (61, bs "=", 4), (258, bs "a\"b", 4), (-1, [], 4), (256, bs "\n", 4),
      (257, bs "+12", 5), (0, [], 5)] ∧
    newlines (bs "query # x\r\n\\\r\n\\\n ") = 3 := by decide +kernel

/-! ### C16 -/

theorem takeWhile_all {p : UInt8 → Bool} {s : List UInt8} (h : ∀ c ∈ s, p c = true) : s.takeWhile p = s := by
  induction s with
  | nil => rfl
  | cons c s ih => rw [List.takeWhile_cons, h c (by simp), if_pos rfl, ih (fun c hc => h c (by simp [hc]))]

theorem encode_decode (s : List UInt8) (h : ∀ c ∈ s, 0 < c ∧ c < 128) : lexDecode (lexEncode s) = s := by
  have key : ∀ n : Fin 256, 0 < n.1 → n.1 < 128 →
      ((if UInt8.ofNat n.1 = 0x27 || UInt8.ofNat n.1 = 0x22 then UInt8.ofNat n.1 ||| 0x80 else UInt8.ofNat n.1) &&& 0x7F) = UInt8.ofNat n.1 := by decide +kernel
  have key' : ∀ c : UInt8, 0 < c ∧ c < 128 → ((if c = 0x27 || c = 0x22 then c ||| 0x80 else c) &&& 0x7F) = c := by
    intro c hc
    have := key ⟨c.toNat, c.toNat_lt⟩ (by have := UInt8.lt_iff_toNat_lt.1 hc.1; simpa using this) (by have := UInt8.lt_iff_toNat_lt.1 hc.2; simpa using this)
    simpa using this
  have e : ((s.map (fun c => if c = 0x27 || c = 0x22 then c ||| 0x80 else c)).map (fun c => c &&& 0x7F)) = s := by
    rw [List.map_map]
    conv => rhs; rw [← List.map_id s]
    exact List.map_congr_left (fun c hc => key' c (h c hc))
  unfold lexDecode lexEncode
  rw [e]
  refine takeWhile_all (fun c hc => ?_)
  have := (h c hc).1
  simp only [ne_eq, decide_not, Bool.not_eq_true', decide_eq_false_iff_not]
  rintro rfl
  exact absurd this (by decide)

/-- Bytes of an encoded string. -/
theorem encode_safe (s : List UInt8) (h : ∀ c ∈ s, c ≠ 0 ∧ ¬ isNl c) : ∀ c ∈ lexEncode s, c ≠ 0x22 ∧ c ≠ 0x27 ∧ ¬ isNl c ∧ c ≠ 0 := by
  intro c hc
  obtain ⟨x, hx, rfl⟩ := List.mem_map.1 hc
  have hx' := h x hx
  by_cases g : x = 0x27 || x = 0x22
  · rw [if_pos g]
    simp at g
    rcases g with rfl | rfl <;> decide
  · rw [if_neg g]
    simp at g
    exact ⟨g.2, g.1, hx'.2, hx'.1⟩

/-- C16. Encoding and decoding give back exactly the 7-bit strings. -/
theorem C16_decode_iff (s : List UInt8) (hz : (0 : UInt8) ∉ s) : lexDecode (lexEncode s) = s ↔ ∀ c ∈ s, c < 128 := by
  constructor
  · intro h c hc
    rw [← h] at hc
    unfold lexDecode at hc
    have hc' : c ∈ (lexEncode s).map (fun c => c &&& 0x7F) := (List.takeWhile_sublist _).subset hc
    obtain ⟨x, _, rfl⟩ := List.mem_map.1 hc'
    rw [UInt8.lt_iff_toNat_lt]
    have : (x &&& 0x7F).toNat ≤ 127 := by rw [UInt8.toNat_and]; exact Nat.and_le_right
    have e : (128 : UInt8).toNat = 128 := by decide
    omega
  · intro h
    refine encode_decode s (fun c hc => ⟨?_, h c hc⟩)
    have : c ≠ 0 := by rintro rfl; exact hz hc
    rw [UInt8.lt_iff_toNat_lt]
    have e : (0 : UInt8).toNat = 0 := by decide
    have : c.toNat ≠ 0 := fun g => this (UInt8.toNat_inj.1 (by rw [g]; rfl))
    omega

/-- C16. Anywhere in a message, an encoded string in quotes is one string token; its text decodes to the string, and the lexer goes on
with what follows the closing quote. -/
theorem C16_round_trip (keys : List (List UInt8)) (hk : KeysOk keys) (l : Lex) (q : UInt8) (hq : q = 0x22 ∨ q = 0x27)
    (blank s rest junk : List UInt8) (hb : ∀ c ∈ blank, c = 0x20) (h7 : ∀ c ∈ s, 0 < c ∧ c < 128) (hnl : ∀ c ∈ s, ¬ isNl c) (hlen : s.length ≤ 1023)
    (hpos : l.pos = blank ++ q :: lexEncode s ++ q :: rest ++ 0 :: junk) (hr : (0 : UInt8) ∉ rest) :
    ∃ l', lexNext keys l = some (l', Token.str.code) ∧ lexDecode l'.text = s ∧ l'.pos = rest ++ 0 :: junk := by
  have h0 : ∀ c ∈ s, c ≠ 0 ∧ ¬ isNl c := fun c hc => ⟨by rintro rfl; exact absurd (h7 0 hc).1 (by decide), hnl c hc⟩
  have hs := encode_safe s h0
  have hw : ∀ c ∈ lexEncode s, c ≠ q ∧ ¬ isNl c := fun c hc => by
    have := hs c hc
    rcases hq with rfl | rfl
    · exact ⟨this.1, this.2.2.1⟩
    · exact ⟨this.2.1, this.2.2.1⟩
  have hsk : ∀ (d : List UInt8), Skips blank d := by
    intro d
    clear hpos
    induction blank with
    | nil => exact .nil d
    | cons c b ih => exact .blank c (Or.inl (hb c (by simp))) b d (ih (fun c hc => hb c (by simp [hc])))
  have hq0 : q ≠ 0 := by rcases hq with rfl | rfl <;> decide
  have htx : (lexEncode s).take 1023 = lexEncode s := List.take_of_length_le (by simp [lexEncode]; omega)
  refine ⟨_, lexNext_complete hk junk l (a := blank) (b := q :: lexEncode s ++ [q]) (r := rest) (by rw [hpos]; simp) (hsk _)
    (.quoted q hq (lexEncode s) rest hw) ?_, ?_, rfl⟩
  · simp only [List.mem_append, List.mem_cons, List.not_mem_nil, or_false, not_or]
    refine ⟨⟨fun h => absurd (hb 0 h) (by decide), ⟨hq0.symm, fun h => (hs 0 h).2.2.2 rfl⟩, hq0.symm⟩, hr⟩
  · dsimp only
    rw [htx]
    exact encode_decode s h7

/-- C16. A line break in the string ends the token: the rest of the string is read as tokens of the message (finding: `lex_encode` does
not protect line breaks). -/
theorem C16_newline_breaks_out :
    lexAll protoStrs 64 (lexCreate (bs "CONSOLE='" ++ lexEncode (bs "a\nOPTION=FORCE #") ++ bs "'\n" ++ [0])) =
      some [(262, bs "CONSOLE", 1), (61, bs "=", 1), (-1, [], 1), (256, bs "\n", 1), (270, bs "OPTION", 2), (61, bs "=", 2), (264, bs "FORCE", 2),
        (256, bs "\n", 2), (0, [], 3)] := by decide +kernel

example : (∀ c ∈ bs "a'b\"", 0 < c ∧ c < 128) ∧ (∀ c ∈ bs "a'b\"", ¬ isNl c) ∧ lexEncode (bs "a'b\"") ≠ bs "a'b\"" ∧
    (lexNext protoStrs { pos := bs " '" ++ lexEncode (bs "a'b\"") ++ bs "'x" ++ [0] }).map (fun x => (lexDecode x.1.text, x.2, x.1.pos)) =
      some (bs "a'b\"", 258, bs "x" ++ [0]) := by decide

end Conman
