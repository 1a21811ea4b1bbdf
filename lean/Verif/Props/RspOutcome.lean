import Verif.Props.ProtoLong

/-
C67: what the client takes from an arbitrary answer.
-/
namespace Conman
open Spec

theorem parseRspOk_err : ∀ (n : Nat) (l : Lex) (q q' : CliRsp), parseRspOk n l q = some q' → q'.errnum = q.errnum ∧ q'.errmsg = q.errmsg
  | 0, _, _, _, h => by simp [parseRspOk] at h
  | n + 1, l, q, q', h => by
    rw [parseRspOk] at h
    obtain ⟨r, -, h⟩ := Option.bind_eq_some_iff.1 h
    split at h
    · obtain ⟨f, -, h⟩ := Option.bind_eq_some_iff.1 h
      have := parseRspOk_err n _ _ _ h
      revert this
      cases f.2 <;> exact id
    · split at h
      · obtain ⟨f, -, h⟩ := Option.bind_eq_some_iff.1 h
        have := parseRspOk_err n _ _ _ h
        revert this
        split <;> exact id
      · split at h
        · cases h; exact ⟨rfl, rfl⟩
        · exact parseRspOk_err n _ _ _ h

theorem parseRspErr_rest : ∀ (n : Nat) (l : Lex) (err : Int) (buf : List UInt8) (q q' : CliRsp), parseRspErr n l err buf q = some q' →
    q'.consoles = q.consoles ∧ q'.reset = q.reset
  | 0, _, _, _, _, _, h => by simp [parseRspErr] at h
  | n + 1, l, err, buf, q, q', h => by
    rw [parseRspErr] at h
    obtain ⟨r, -, h⟩ := Option.bind_eq_some_iff.1 h
    split at h
    · obtain ⟨f, -, h⟩ := Option.bind_eq_some_iff.1 h
      split at h
      · obtain ⟨v, -, h⟩ := Option.bind_eq_some_iff.1 h
        exact parseRspErr_rest n _ _ _ _ _ h
      · exact parseRspErr_rest n _ _ _ _ _ h
    · split at h
      · obtain ⟨f, -, h⟩ := Option.bind_eq_some_iff.1 h
        exact parseRspErr_rest n _ _ _ _ _ h
      · split at h
        · cases h; exact ⟨rfl, rfl⟩
        · exact parseRspErr_rest n _ _ _ _ _ h

theorem rspLoop_outcome : ∀ (n : Nat) (l : Lex) (q : CliRsp) (ok : Bool), rspLoop n l = some (q, ok) →
    (ok = true → q.errnum = 0 ∧ q.errmsg = none) ∧ (ok = false → q.errnum ≠ 0 ∧ q.consoles = [] ∧ q.reset = false)
  | 0, _, _, _, h => by simp [rspLoop] at h
  | n + 1, l, q, ok, h => by
    rw [rspLoop] at h
    obtain ⟨r, -, h⟩ := Option.bind_eq_some_iff.1 h
    split at h
    · obtain ⟨p, hp, h⟩ := Option.map_eq_some_iff.1 h
      cases h
      exact ⟨fun _ => parseRspOk_err _ _ _ _ hp, fun g => by simp at g⟩
    · split at h
      · obtain ⟨p, hp, h⟩ := Option.map_eq_some_iff.1 h
        have hr := parseRspErr_rest _ _ _ _ _ _ hp
        cases h
        refine ⟨fun g => by simp at g, fun _ => ?_⟩
        split
        · exact ⟨by simp, hr⟩
        · rename_i hne; exact ⟨hne, hr⟩
      · split at h
        · cases h; exact ⟨fun g => by simp at g, fun _ => ⟨by simp, rfl, rfl⟩⟩
        · exact rspLoop_outcome n _ _ _ h

/-- C67. Whatever bytes a server answers, the client never mixes success and failure: after success there is neither an error number nor an
error text, and after failure there is an error number other than 0, and no console and no permission to reset was taken from the answer. -/
theorem C67_client_outcome (buf : List UInt8) (q : CliRsp) (ok : Bool) (h : recvRsp buf = some (q, ok)) :
    (ok = true → q.errnum = 0 ∧ q.errmsg = none) ∧ (ok = false → q.errnum ≠ 0 ∧ q.consoles = [] ∧ q.reset = false) :=
  rspLoop_outcome _ _ _ _ h

/-- Answers of both kinds that try to mix them. -/
example : (∃ q, recvRsp (bs "OK CODE=3 MESSAGE='x' CONSOLE='a'\n" ++ [0]) = some (q, true) ∧ q.consoles = [bs "a"]) ∧
    ∃ q, recvRsp (bs "ERROR CODE=0 CONSOLE='a' OPTION=RESET MESSAGE='x'\n" ++ [0]) = some (q, false) ∧ q.errnum = 1 :=
  ⟨⟨{ consoles := [bs "a"] }, by decide +kernel, rfl⟩, ⟨{ errnum := 1, errmsg := some (bs "x") }, by decide +kernel, rfl⟩⟩

end Conman
