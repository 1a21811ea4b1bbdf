import Verif.Model.Telnet
import Verif.Spec.Telnet
import Verif.Lemma.Esc

namespace Conman
open Spec Tel

/-- One byte: new state, data, replies. -/
def telByte (iac : Option UInt8) (c : UInt8) : Option (Option UInt8 × List UInt8 × List UInt8) :=
  match iac with
  | none => if c = IAC then some (some c, [], []) else some (none, [c], [])
  | some s =>
    if s = IAC then
      if c = IAC then some (none, [c], [])
      else if c = DONT ∨ c = DO ∨ c = WONT ∨ c = WILL ∨ c = SB then some (some c, [], [])
      else if c = SE then some (none, [], [])
      else some (none, [], processTelnetCmd c none)
    else if s = DONT ∨ s = DO ∨ s = WONT ∨ s = WILL then some (none, [], processTelnetCmd s (some c))
    else if s = SB then
      if c = IAC then some (some c, [], []) else some (some s, [], [])
    else none

/-- Prepend data and replies. -/
def telPre (d s : List UInt8) : Option (Option UInt8 × List UInt8 × List UInt8) →
    Option (Option UInt8 × List UInt8 × List UInt8)
  | none => none
  | some (i', d', s') => some (i', d ++ d', s ++ s')

/-- Streaming form of the telnet loop. -/
def telRef (iac : Option UInt8) : List UInt8 → Option (Option UInt8 × List UInt8 × List UInt8)
  | [] => some (iac, [], [])
  | c :: cs =>
    match telByte iac c with
    | none => none
    | some (i, d, s) => telPre d s (telRef i cs)

def TelOut.trip (pre : List UInt8) (o : Option TelOut) (r : Option (Option UInt8 × List UInt8 × List UInt8))
    (sent : List UInt8) (n : Nat) : Prop :=
  match o, r with
  | none, none => True
  | some o, some (i, d, s) => o.iac = i ∧ o.buf.take o.len = pre ++ d ∧ o.sent = sent ++ s ∧
      o.len ≤ n ∧ o.buf.length = n
  | _, _ => False

theorem TelOut.trip_cons {pre o r sent n} (d s : List UInt8)
    (h : TelOut.trip (pre ++ d) o r (sent ++ s) n) :
    TelOut.trip pre o (telPre d s r) sent n := by
  cases o <;> cases r <;> simp_all [TelOut.trip, telPre]

theorem telLoop_eq (buf : List UInt8) (p q : Nat) (iac : Option UInt8) (sent : List UInt8)
    (hq : q ≤ p) (hp : p ≤ buf.length) :
    TelOut.trip (buf.take q) (telLoop buf p q iac sent) (telRef iac (buf.drop p)) sent buf.length := by
  induction h : buf.length - p generalizing buf p q iac sent with
  | zero =>
    have hlt : ¬ p < buf.length := by omega
    rw [telLoop]
    have : buf.drop p = [] := List.drop_eq_nil_of_le (by omega)
    simp [hlt, this, telRef, TelOut.trip]; omega
  | succ n ih =>
    have hlt : p < buf.length := by omega
    have hdrop : buf.drop p = buf[p] :: buf.drop (p + 1) := List.drop_eq_getElem_cons hlt
    have keep : ∀ i s, TelOut.trip (buf.take q ++ [buf[p]]) (telLoop (buf.set q buf[p]) (p+1) (q+1) i (sent ++ s))
        (telRef i (buf.drop (p+1))) (sent ++ s) buf.length := by
      intro i s
      have := ih (buf.set q buf[p]) (p+1) (q+1) i (sent ++ s) (by omega) (by simp; omega) (by simp; omega)
      rw [drop_set_lt _ _ _ _ (by omega), take_set_succ _ _ _ (by omega)] at this
      simpa using this
    have skip : ∀ i s, TelOut.trip (buf.take q ++ []) (telLoop buf (p+1) q i (sent ++ s))
        (telRef i (buf.drop (p+1))) (sent ++ s) buf.length := by
      intro i s
      simpa using ih buf (p+1) q i (sent ++ s) (by omega) (by omega) (by omega)
    have keep0 := fun i => TelOut.trip_cons _ _ (keep i [])
    have skip0 := fun i => TelOut.trip_cons _ _ (skip i [])
    have skips := fun i s => TelOut.trip_cons _ _ (skip i s)
    simp only [List.append_nil] at keep0 skip0
    rw [telLoop, hdrop, telRef]
    simp only [hlt, dite_true]
    cases iac with
    | none =>
      simp only [telByte]
      split
      · exact skip0 _
      · exact keep0 _
    | some s =>
      simp only [telByte]
      split
      · split
        · exact keep0 _
        · split
          · exact skip0 _
          · split
            · exact skip0 _
            · exact skips _ _
      · split
        · exact skips _ _
        · split
          · split
            · exact skip0 _
            · exact skip0 _
          · trivial

theorem telRef_append (iac : Option UInt8) (a b : List UInt8) :
    telRef iac (a ++ b) =
      match telRef iac a with
      | none => none
      | some (i, d, s) => telPre d s (telRef i b) := by
  induction a generalizing iac with
  | nil =>
    simp only [List.nil_append, telRef]
    cases telRef iac b <;> simp [telPre]
  | cons c cs ih =>
    simp only [List.cons_append, telRef]
    cases telByte iac c with
    | none => rfl
    | some r =>
      obtain ⟨i, d, s⟩ := r
      simp only [ih]
      cases telRef i cs with
      | none => rfl
      | some r =>
        obtain ⟨i2, d2, s2⟩ := r
        simp only [telPre]
        cases telRef i2 b with
        | none => rfl
        | some r => simp

theorem telChunks_eq (iac : Option UInt8) (chunks : List (List UInt8)) :
    telChunks iac chunks = telRef iac chunks.flatten := by
  induction chunks generalizing iac with
  | nil => rfl
  | cons c cs ih =>
    have h := telLoop_eq c 0 0 iac [] (by omega) (by omega)
    rw [List.flatten_cons, telRef_append]
    simp only [List.drop_zero, List.take_zero] at h
    unfold telChunks processTelnetEscapes
    cases ho : telLoop c 0 0 iac [] with
    | none =>
      cases hr : telRef iac c with
      | none => rfl
      | some r => simp [ho, hr, TelOut.trip] at h
    | some o =>
      cases hr : telRef iac c with
      | none => simp [ho, hr, TelOut.trip] at h
      | some r =>
        obtain ⟨i, d, s⟩ := r
        simp only [ho, hr, TelOut.trip, List.nil_append] at h
        obtain ⟨h1, h2, h3, -, -⟩ := h
        simp only [ih, h1, h2, h3]
        cases telRef i cs.flatten <;> rfl

/-- The states `iac` can be in. -/
def iacOk (iac : Option UInt8) : Prop :=
  iac = none ∨ iac = some IAC ∨ iac = some DONT ∨ iac = some DO ∨ iac = some WONT ∨
  iac = some WILL ∨ iac = some SB

theorem telByte_ok {iac c} (h : iacOk iac) : ∃ i d s, telByte iac c = some (i, d, s) ∧ iacOk i := by
  unfold telByte
  rcases h with rfl | rfl | rfl | rfl | rfl | rfl | rfl
  · by_cases hc : c = IAC <;> simp [hc, iacOk]
  · by_cases h1 : c = IAC
    · simp [h1, iacOk]
    · by_cases h2 : c = DONT ∨ c = DO ∨ c = WONT ∨ c = WILL ∨ c = SB
      · simp only [h1, h2, if_true, if_false]
        refine ⟨_, _, _, rfl, ?_⟩
        rcases h2 with rfl | rfl | rfl | rfl | rfl <;> simp [iacOk]
      · by_cases h3 : c = SE <;> simp [h1, h2, h3, iacOk]
        simp [SE, IAC, DONT, DO, WONT, WILL, SB]
  all_goals simp [IAC, DONT, DO, WONT, WILL, SB, iacOk]
  by_cases hc : c = 255 <;> simp [hc]

theorem telRef_ok {iac} (cs : List UInt8) (h : iacOk iac) :
    ∃ i d s, telRef iac cs = some (i, d, s) ∧ iacOk i := by
  induction cs generalizing iac with
  | nil => exact ⟨_, _, _, rfl, h⟩
  | cons c cs ih =>
    obtain ⟨i, d, s, h1, h2⟩ := telByte_ok (c := c) h
    obtain ⟨i', d', s', h3, h4⟩ := ih h2
    exact ⟨i', d ++ d', s ++ s', by simp [telRef, telPre, h1, h3], h4⟩

/-- Parameter bytes are skipped. -/
theorem telRef_sub (body rest : List UInt8) (h : (255 : UInt8) ∉ body) :
    telRef (some SB) (body ++ rest) = telRef (some SB) rest := by
  induction body with
  | nil => rfl
  | cons b bs ih =>
    simp only [List.mem_cons, not_or] at h
    have hb : ¬ b = IAC := fun e => h.1 e.symm
    have : telByte (some SB) b = some (some SB, [], []) := by
      simp only [telByte, hb, if_false]; rw [if_neg (by decide), if_neg (by decide), if_pos trivial]
    simp only [List.cons_append, telRef, this, ih h.2]
    cases telRef (some SB) rest <;> simp [telPre]

theorem flatMap_iacDouble (body : List UInt8) (h : (255 : UInt8) ∉ body) :
    body.flatMap iacDouble = body := by
  induction body with
  | nil => rfl
  | cons b bs ih =>
    simp only [List.mem_cons, not_or] at h
    have hb : ¬ b = 255 := fun e => h.1 e.symm
    simp [iacDouble, hb, ih h.2]

/-- What one element does. -/
theorem telRef_tok (t : TelTok) (hok : t.ok) (hsub : ∀ body, t = .sub body → (255 : UInt8) ∉ body) :
    telRef none t.enc = some (none, t.appData, t.reply.flatMap TelTok.enc) := by
  cases t with
  | data b =>
    by_cases hb : b = 255
    · subst hb; decide
    · simp [TelTok.enc, iacDouble, hb, telRef, telPre, telByte, IAC, TelTok.appData, TelTok.reply]
  | will o =>
    simp only [TelTok.enc, telRef, telPre, telByte, TelTok.appData, TelTok.reply, processTelnetCmd, sendTelnetCmd, cmdOk,
      IAC, DONT, DO, WONT, WILL, SB, SE, BINARY, ECHO, SGA]
    by_cases h0 : o = 0
    · subst h0; decide
    · by_cases h1 : o = 1
      · subst h1; decide
      · by_cases h3 : o = 3
        · subst h3; decide
        · simp [h0, h1, h3, TelTok.enc]
  | do_ o =>
    simp only [TelTok.enc, telRef, telPre, telByte, TelTok.appData, TelTok.reply, processTelnetCmd, sendTelnetCmd, cmdOk,
      IAC, DONT, DO, WONT, WILL, SB, SE, BINARY, ECHO, SGA]
    by_cases h0 : o = 0
    · subst h0; decide
    · by_cases h3 : o = 3
      · subst h3; decide
      · simp [h0, h3, TelTok.enc]
  | wont o =>
    simp [TelTok.enc, telRef, telPre, telByte, TelTok.appData, TelTok.reply, processTelnetCmd, cmdOk,
      IAC, DONT, DO, WONT, WILL, SB]
  | dont o =>
    simp [TelTok.enc, telRef, telPre, telByte, TelTok.appData, TelTok.reply, processTelnetCmd, cmdOk,
      IAC, DONT, DO, WONT, WILL, SB]
  | sub body =>
    have hb := hsub body rfl
    have h2 : telRef none [255, 250] = some (some SB, [], []) := by decide
    have h3 : telRef (some SB) [255, 240] = some (none, [], []) := by decide
    simp only [TelTok.enc, flatMap_iacDouble body hb, List.append_assoc]
    rw [telRef_append, h2]
    simp only [telRef_sub body _ hb, h3]
    rfl
  | cmd c =>
    have hc : c < 250 := hok
    have hne : ∀ k : UInt8, 250 ≤ k → ¬ c = k := by
      intro k hk e; subst e; exact absurd hc (UInt8.not_lt.2 hk)
    have hp : processTelnetCmd c none = [] := by
      simp [processTelnetCmd, hne, DONT, DO, WONT, WILL]
    simp only [TelTok.enc, telRef, telPre, telByte, TelTok.appData, TelTok.reply, hp, IAC, DONT, DO, WONT, WILL, SB, SE]
    simp only [hne 255 (by decide), hne 254 (by decide), hne 253 (by decide), hne 252 (by decide),
      hne 251 (by decide), hne 250 (by decide), or_self, if_true, if_false]
    by_cases h : c = 240 <;> simp [h]

theorem telRef_toks (ts : List TelTok) (hok : ∀ t ∈ ts, t.ok)
    (hsub : ∀ body, .sub body ∈ ts → (255 : UInt8) ∉ body) :
    telRef none (ts.flatMap TelTok.enc) =
      some (none, ts.flatMap TelTok.appData, (ts.flatMap TelTok.reply).flatMap TelTok.enc) := by
  induction ts with
  | nil => rfl
  | cons t ts ih =>
    have h1 := telRef_tok t (hok t (by simp)) (fun body e => hsub body (by simp [e]))
    have h2 := ih (fun t ht => hok t (by simp [ht])) (fun b hb => hsub b (by simp [hb]))
    simp [telRef_append, telPre, h1, h2]

theorem processTelnetCmd_reply (c : UInt8) (o : Option UInt8) (ho : c = DONT ∨ c = DO ∨ c = WONT ∨ c = WILL → o ≠ none) :
    ∃ ts : List TelTok, processTelnetCmd c o = ts.flatMap TelTok.enc ∧ ts.length ≤ 1 ∧
      ∀ t ∈ ts, ∃ p, t = .wont p ∨ t = .dont p := by
  unfold processTelnetCmd
  split
  · exact ⟨[], by simp⟩
  split
  · exact ⟨[], by simp⟩
  split
  · split
    · cases o with
      | none => simp_all
      | some o => exact ⟨[.wont o], by simp [sendTelnetCmd, cmdOk, WONT, DONT, DO, IAC, WILL, TelTok.enc]⟩
    · exact ⟨[], by simp⟩
  split
  · exact ⟨[], by simp⟩
  split
  · split
    · cases o with
      | none => simp_all
      | some o => exact ⟨[.dont o], by simp [sendTelnetCmd, cmdOk, WONT, DONT, DO, IAC, WILL, TelTok.enc]⟩
    · exact ⟨[], by simp⟩
  · exact ⟨[], by simp⟩

theorem telByte_reply {iac c i d s} (h : telByte iac c = some (i, d, s)) :
    ∃ ts : List TelTok, s = ts.flatMap TelTok.enc ∧ ts.length ≤ 1 ∧
      ∀ t ∈ ts, ∃ p, t = .wont p ∨ t = .dont p := by
  have nil : s = [] → ∃ ts : List TelTok, s = ts.flatMap TelTok.enc ∧ ts.length ≤ 1 ∧
      ∀ t ∈ ts, ∃ p, t = .wont p ∨ t = .dont p := fun h => ⟨[], by simp [h]⟩
  unfold telByte at h
  cases iac with
  | none =>
    simp only at h
    split at h <;> simp only [Option.some.injEq, Prod.mk.injEq] at h <;> exact nil h.2.2.symm
  | some z =>
    simp only at h
    split at h
    · split at h
      · simp only [Option.some.injEq, Prod.mk.injEq] at h; exact nil h.2.2.symm
      · split at h
        · simp only [Option.some.injEq, Prod.mk.injEq] at h; exact nil h.2.2.symm
        · rename_i h5
          split at h
          · simp only [Option.some.injEq, Prod.mk.injEq] at h; exact nil h.2.2.symm
          · simp only [Option.some.injEq, Prod.mk.injEq] at h
            rw [← h.2.2]
            refine processTelnetCmd_reply c none ?_
            intro hh; exfalso; apply h5; rcases hh with h | h | h | h <;> simp [h]
    · split at h
      · simp only [Option.some.injEq, Prod.mk.injEq] at h
        rw [← h.2.2]
        exact processTelnetCmd_reply z (some c) (by simp)
      · split at h
        · split at h <;> simp only [Option.some.injEq, Prod.mk.injEq] at h <;> exact nil h.2.2.symm
        · simp at h

/-- Replies consist of refusals only. -/
theorem telRef_reply {iac cs i d s} (h : telRef iac cs = some (i, d, s)) :
    ∃ ts : List TelTok, s = ts.flatMap TelTok.enc ∧ ts.length ≤ cs.length ∧
      ∀ t ∈ ts, ∃ p, t = .wont p ∨ t = .dont p := by
  induction cs generalizing iac i d s with
  | nil => simp [telRef] at h; exact ⟨[], by simp [h]⟩
  | cons c cs ih =>
    simp only [telRef] at h
    cases hb : telByte iac c with
    | none => simp [hb] at h
    | some r =>
      obtain ⟨i1, d1, s1⟩ := r
      simp only [hb] at h
      cases hr : telRef i1 cs with
      | none => simp [hr, telPre] at h
      | some r =>
        obtain ⟨i2, d2, s2⟩ := r
        simp only [hr, telPre, Option.some.injEq, Prod.mk.injEq] at h
        obtain ⟨t1, e1, l1, m1⟩ := telByte_reply hb
        obtain ⟨t2, e2, l2, m2⟩ := ih hr
        refine ⟨t1 ++ t2, by simp [← h.2.2, e1, e2], by simp; omega, ?_⟩
        intro t ht
        rcases List.mem_append.1 ht with ht | ht
        · exact m1 t ht
        · exact m2 t ht

end Conman
