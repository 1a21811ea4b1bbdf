import Verif.Lemma.ProtoItems
import Verif.Lemma.Dec

/-
Lemmas about greetings and responses.
-/
namespace Conman
open Spec

theorem arg_str (l : Lex) (t : Int) (i : Nat) (k s rest junk : List UInt8) (hi : protoStrs[i]? = some k) (ht : t = 259 + (i : Int)) (hs : Plain s)
    (hpos : l.pos = strArg t s ++ (rest ++ 0 :: junk)) (hz : (0 : UInt8) ∉ rest) :
    ∃ l1 l2, lexNext protoStrs l = some (l1, t) ∧ strField l1 = some (l2, some (lexEncode s)) ∧ l2.pos = rest ++ 0 :: junk := by
  obtain ⟨l1, h1, p1⟩ := arg_key l t i k (bs "='" ++ (lexEncode s ++ bs "'")) rest junk hi ht (by
      have : bs "='" = [0x3D, 0x27] := by decide
      rw [this]; rfl) (by rw [hpos]; unfold strArg; simp only [List.append_assoc]) (by
      simp only [List.mem_append, not_or]; exact ⟨by decide, encode_nz hs, by decide⟩) hz
  obtain ⟨l2, h2, p2⟩ := strField_eq l1 s rest junk hs (by rw [p1]; simp only [List.append_assoc]) hz
  exact ⟨l1, l2, h1, h2, p2⟩

theorem strArg_tail {t : Int} {s r : List UInt8} (h : (0 : UInt8) ∉ strArg t s ++ r) : Tail (strArg t s ++ r) :=
  Or.inl ⟨h, _, by unfold strArg; simp only [List.append_assoc]; rfl⟩

/-! ### Greeting -/

def helloLine (user : List UInt8) (tty : Option (List UInt8)) : List UInt8 :=
  protoStr tokHello ++ strArg tokUser user ++ (tty.toList.map (strArg tokTty)).flatten

theorem greeting_eq (size : Nat) (user : List UInt8) (tty : Option (List UInt8)) (h0 : 0 < size) (hu : Plain user) (ht : ∀ t ∈ tty, Plain t) :
    greeting size user tty = some (if (helloLine user tty ++ bs "\n").length < size then some (helloLine user tty ++ bs "\n") else none) := by
  have hfl : ([protoStr tokHello ++ strArg tokUser user] ++ tty.toList.map (strArg tokTty) ++ [bs "\n"]).flatten = helloLine user tty ++ bs "\n" := by
    unfold helloLine; simp
  unfold greeting
  rw [buildMsg_eq size _ (bs "\n") h0 ?_ (by rw [List.getLast?_append]; rfl) (by decide), hfl]
  intro p hp
  simp only [List.mem_append, List.mem_singleton] at hp
  rcases hp with (rfl | hp) | rfl
  · rw [List.mem_append, not_or]
    exact ⟨by decide, strArg_nz (i := 17) (k := bs "USER") rfl hu⟩
  · obtain ⟨s, hs, rfl⟩ := List.mem_map.1 hp
    exact strArg_nz (i := 16) (k := bs "TTY") rfl (ht s (by simpa using hs))
  · decide

theorem helloLine_clean {user : List UInt8} {tty : Option (List UInt8)} (hu : Plain user) (ht : ∀ t ∈ tty, Plain t) :
    (0x0A : UInt8) ∉ helloLine user tty := by
  unfold helloLine
  simp only [List.mem_append, not_or]
  refine ⟨⟨by decide, strArg_nl (i := 17) (k := bs "USER") rfl hu⟩, ?_⟩
  intro hm
  obtain ⟨l, hl, hm⟩ := List.mem_flatten.1 hm
  obtain ⟨s, hs, rfl⟩ := List.mem_map.1 hl
  exact strArg_nl (i := 16) (k := bs "TTY") rfl (ht s (by simpa using hs)) hm

theorem parseGreeting_nl (junk : List UInt8) (n : Nat) (l : Lex) (q : SrvReq) (hpos : l.pos = bs "\n" ++ 0 :: junk) :
    ∃ l', parseGreeting (n + 1) l q = some (l', q) ∧ l'.pos = 0 :: junk := by
  have e : bs "\n" = [0x0A] := by decide
  obtain ⟨l', h1, h2⟩ := next_nl l [] junk (by rw [hpos, e]; rfl) (by simp)
  refine ⟨l', ?_, h2⟩
  rw [parseGreeting, h1, Option.bind_some]
  dsimp only
  rw [if_neg (by decide), if_neg (by decide), if_pos (Or.inr rfl)]

theorem greetingLoop_eq (junk : List UInt8) (user : List UInt8) (tty : Option (List UInt8)) (n : Nat) (l : Lex) (q : SrvReq) (hu : Plain user) (ht : ∀ t ∈ tty, Plain t)
    (hpos : l.pos = helloLine user tty ++ bs "\n" ++ 0 :: junk) :
    greetingLoop (n + 3) l q = some { q with user := if user = [] then q.user else some user, tty := if tty.getD [] = [] then q.tty else tty } := by
  have ez : (0 : UInt8) ∉ bs "\n" := by decide
  have hz : ∀ r : List UInt8, (0 : UInt8) ∉ r → (0 : UInt8) ∉ strArg tokUser user ++ r := by
    intro r hr
    rw [List.mem_append, not_or]
    exact ⟨strArg_nz (i := 17) (k := bs "USER") rfl hu, hr⟩
  have hz2 : (0 : UInt8) ∉ (tty.toList.map (strArg tokTty)).flatten ++ bs "\n" := by
    rw [List.mem_append, not_or]
    refine ⟨?_, ez⟩
    intro hm
    obtain ⟨l, hl, hm⟩ := List.mem_flatten.1 hm
    obtain ⟨s, hs, rfl⟩ := List.mem_map.1 hl
    exact strArg_nz (i := 16) (k := bs "TTY") rfl (ht s (by simpa using hs)) hm
  have htail := strArg_tail (hz _ hz2)
  obtain ⟨l0, h0, p0⟩ := next_key (i := 6) (k := bs "HELLO") rfl l [] (strArg tokUser user ++ ((tty.toList.map (strArg tokTty)).flatten ++ bs "\n")) junk (Or.inl rfl) (by
    rw [hpos]; unfold helloLine; simp only [List.append_assoc]; rfl) htail.notIdent htail.nz
  obtain ⟨l1, l2, h1, h2, p2⟩ := arg_str l0 tokUser 17 (bs "USER") user _ junk rfl rfl hu (by rw [p0]; simp only [List.append_assoc]) hz2
  have fin : ∀ (l2 : Lex) (q2 : SrvReq), l2.pos = 0 :: junk → greetingLoop (n + 2) l2 q2 = some q2 := by
    intro l2 q2 hp
    obtain ⟨l3, h3, _⟩ := next_eof l2 junk hp
    rw [greetingLoop, h3, Option.bind_some]
    dsimp only
    rw [if_neg (by decide), if_pos (Or.inl rfl)]
  have e0 : (259 : Int) + ((6 : Nat) : Int) = tokHello := by decide
  rw [e0] at h0
  rw [greetingLoop, h0, Option.bind_some]
  dsimp only
  rw [if_pos rfl, parseGreeting, h1, Option.bind_some]
  dsimp only
  rw [if_pos rfl, h2, Option.bind_some, fieldVal_eq hu]
  cases tty with
  | none =>
    obtain ⟨l3, h3, p3⟩ := parseGreeting_nl junk (n + 1) l2 (if user = [] then q else { q with user := some user }) (by rw [p2]; simp)
    have e1 : setUser q (if user = [] then none else some user) = if user = [] then q else { q with user := some user } := by
      by_cases g : user = [] <;> simp [g, setUser]
    dsimp only
    rw [e1, h3, Option.bind_some, fin l3 _ p3]
    by_cases g : user = [] <;> simp [g]
  | some t =>
    have hpt := ht t rfl
    obtain ⟨l3, l4, h3, h4, p4⟩ := arg_str l2 tokTty 16 (bs "TTY") t (bs "\n") junk rfl rfl hpt (by rw [p2]; simp) ez
    have e1 : setUser q (if user = [] then none else some user) = if user = [] then q else { q with user := some user } := by
      by_cases g : user = [] <;> simp [g, setUser]
    dsimp only
    rw [e1, parseGreeting, h3, Option.bind_some]
    dsimp only
    rw [if_neg (by decide), if_pos rfl, h4, Option.bind_some, fieldVal_eq hpt]
    have e2 : ∀ q : SrvReq, setTty q (if t = [] then none else some t) = if t = [] then q else { q with tty := some t } := by
      intro q; by_cases g : t = [] <;> simp [g, setTty]
    dsimp only
    rw [e2]
    obtain ⟨l5, h5, p5⟩ := parseGreeting_nl junk n l4 (if t = [] then (if user = [] then q else { q with user := some user }) else { (if user = [] then q else { q with user := some user }) with tty := some t }) p4
    rw [h5, Option.bind_some, fin l5 _ p5]
    by_cases g : user = [] <;> by_cases g2 : t = [] <;> simp [g, g2]

/-! ### Responses -/

theorem appendStrict_eq (size : Nat) : ∀ (ps : List (List UInt8)) (buf d : List UInt8), size ≤ buf.length → cstr buf = some d → d.length < size →
    (∀ p ∈ ps, p ≠ [] ∧ (0 : UInt8) ∉ p) →
    appendStrict size ps buf = some (if (d ++ ps.flatten).length < size then some (d ++ ps.flatten) else none) := by
  intro ps
  induction ps with
  | nil => intro buf d _ hc hl _; simp [appendStrict, hc, hl]
  | cons p ps ih =>
    intro buf d hb hc hl hp
    obtain ⟨hp1, hp2⟩ := hp p (by simp)
    have hlen : 0 < p.length := List.length_pos_iff.2 hp1
    obtain ⟨dst', e, e1, _, e3⟩ := C20_append_partial buf d p size hb hc hl hp2
    rw [appendStrict, e, Option.bind_some]
    dsimp only
    by_cases g : size ≤ d.length + p.length
    · rw [if_pos (Or.inr g), if_pos rfl, if_neg]
      simp only [List.flatten_cons, List.length_append]; omega
    · rw [if_neg (show ¬ (d.length + 1 = size ∨ size ≤ d.length + p.length) by omega), if_neg (by omega)]
      have ht : (d ++ p).take (size - 1) = d ++ p := List.take_of_length_le (by simp only [List.length_append]; omega)
      rw [ht] at e3
      rw [ih dst' (d ++ p) (by omega) e3 (by simp only [List.length_append]; omega) (fun x hx => hp x (by simp [hx]))]
      simp only [List.flatten_cons, List.append_assoc]

def rspItems (reset : Bool) (consoles : List (List UInt8)) : List Item :=
  (if consoles ≠ [] ∧ reset = true then [.opt 15] else []) ++ consoles.map .con

theorem rspItems_ok {reset : Bool} {consoles : List (List UInt8)} (h : ∀ c ∈ consoles, Plain c) : ∀ x ∈ rspItems reset consoles, x.ok := by
  intro x hx
  rcases List.mem_append.1 hx with hx | hx
  · split at hx
    · rw [List.mem_singleton] at hx; subst hx; exact (by decide : 15 < 18)
    · simp at hx
  · obtain ⟨s, hs, rfl⟩ := List.mem_map.1 hx
    exact h s hs

theorem mapM_nameArg : ∀ (cs : List (List UInt8)), (∀ c ∈ cs, c.length ≤ 1023) → cs.mapM nameArg = some (cs.map (strArg tokConsole)) := by
  intro cs
  induction cs with
  | nil => intro _; rfl
  | cons c cs ih =>
    intro h
    have h1 : nameArg c = some (strArg tokConsole c) := by
      unfold nameArg
      rw [if_neg]
      have := h c (by simp)
      have : maxLine = 1024 := rfl
      omega
    rw [List.mapM_cons, h1, ih (fun x hx => h x (by simp [hx]))]
    rfl

theorem rspOk_eq (size : Nat) (reset : Bool) (consoles : List (List UInt8)) (h0 : 0 < size) (h : ∀ c ∈ consoles, Plain c) :
    rspOk size reset consoles = some (if (protoStr tokOk ++ line (rspItems reset consoles)).length < size then some (protoStr tokOk ++ line (rspItems reset consoles)) else none) := by
  have hp : rspPieces reset consoles = some ([protoStr tokOk] ++ (rspItems reset consoles).map Item.render ++ [bs "\n"]) := by
    unfold rspPieces rspItems
    rw [mapM_nameArg consoles (fun c hc => (h c hc).2)]
    cases consoles with
    | nil => rfl
    | cons c cs =>
      cases reset <;> simp [Item.render_con, Item.render_opt] <;> rfl
  unfold rspOk
  rw [hp]
  dsimp only
  rw [appendStrict_eq size _ (List.replicate size 0) [] (by simp) (cstr_replicate size h0) (by simpa using h0) ?_]
  · congr 1
    unfold line
    simp
  · intro p hp
    simp only [List.mem_append, List.mem_singleton] at hp
    rcases hp with (rfl | hp) | rfl
    · decide
    · obtain ⟨x, hx, rfl⟩ := List.mem_map.1 hp
      exact ⟨List.length_pos_iff.1 (render_pos x), (Item.nz (rspItems_ok h x hx)).1⟩
    · decide

def Item.applyRsp (q : CliRsp) : Item → CliRsp
  | con s => { q with consoles := q.consoles ++ [s] }
  | opt i => if i = 15 then { q with reset := true } else q

theorem parseRspOk_eq (junk : List UInt8) : ∀ (xs : List Item) (n : Nat) (l : Lex) (q : CliRsp), (∀ x ∈ xs, x.ok) → xs.length < n →
    l.pos = line xs ++ 0 :: junk → parseRspOk n l q = some (xs.foldl Item.applyRsp q) := by
  intro xs
  induction xs with
  | nil =>
    intro n l q _ hn hpos
    cases n with
    | zero => omega
    | succ n =>
      have e : line [] = [0x0A] := by decide
      rw [e] at hpos
      obtain ⟨l', h1, h2⟩ := next_nl l [] junk (by rw [hpos]; rfl) (by simp)
      rw [parseRspOk, h1, Option.bind_some]
      dsimp only
      rw [if_neg (by decide), if_neg (by decide), if_pos (Or.inr rfl)]
      rfl
  | cons x xs ih =>
    intro n l q hok hn hpos
    have hox : x.ok := hok x (by simp)
    have hoxs : ∀ y ∈ xs, y.ok := fun y hy => hok y (by simp [hy])
    have hl : line (x :: xs) = x.render ++ line xs := by unfold line; simp
    have htail := line_tail hoxs
    rw [hl] at hpos
    cases n with
    | zero => simp at hn
    | succ n =>
      simp only [List.length_cons] at hn
      cases x with
      | con s =>
        obtain ⟨l1, l2, h1, h2, p2⟩ := arg_str l tokConsole 3 (bs "CONSOLE") s (line xs) junk rfl rfl hox (by rw [hpos, Item.render_con, List.append_assoc]) htail.nz
        rw [parseRspOk, h1, Option.bind_some]
        dsimp only
        rw [if_pos rfl, h2, Option.bind_some]
        dsimp only
        rw [plain_decode hox, ih n l2 _ hoxs (by omega) p2]
        rfl
      | opt i =>
        obtain ⟨k, hk⟩ := getProto hox
        have hkz := (proto_letters k (List.mem_of_getElem? hk)).2.2
        obtain ⟨l1, h1, p1⟩ := arg_key l tokOption 11 (bs "OPTION") (bs "=" ++ k) (line xs) junk rfl rfl (by
            have : bs "=" = [0x3D] := by decide
            rw [this]; rfl) (by
            rw [hpos, Item.render_opt]; unfold optArg; rw [protoStr_get hk]; simp only [List.append_assoc]) (by
            simp only [List.mem_append, not_or]; exact ⟨by decide, hkz⟩) htail.nz
        obtain ⟨l2, h2, p2⟩ := optField_eq hk l1 (line xs) junk (by rw [p1]; simp only [List.append_assoc]) htail.notIdent htail.nz
        rw [parseRspOk, h1, Option.bind_some]
        dsimp only
        rw [if_neg (by decide), if_pos rfl, h2, Option.bind_some]
        dsimp only
        rw [ih n l2 _ hoxs (by omega) p2, List.foldl_cons]
        have e : Item.applyRsp q (.opt i) = if some (259 + (i : Int)) = some tokReset then { q with reset := true } else q := by
          unfold Item.applyRsp tokReset
          by_cases g : i = 15
          · subst g; rfl
          · simp only [if_neg g]; rw [if_neg (by simp only [Option.some.injEq]; omega)]
        rw [e]

theorem foldl_rsp (cs : List (List UInt8)) : ∀ q : CliRsp, (cs.map Item.con).foldl Item.applyRsp q = { q with consoles := q.consoles ++ cs } := by
  induction cs with
  | nil => intro q; simp
  | cons c cs ih =>
    intro q
    rw [List.map_cons, List.foldl_cons, ih]
    simp [Item.applyRsp]

theorem recvRsp_ok (junk : List UInt8) (buf : List UInt8) (reset : Bool) (consoles : List (List UInt8)) (h : ∀ c ∈ consoles, Plain c)
    (hbuf : buf = protoStr tokOk ++ line (rspItems reset consoles) ++ 0 :: junk) :
    recvRsp buf = some ({ consoles := consoles, reset := reset && decide (consoles ≠ []) }, true) := by
  have hok := rspItems_ok (reset := reset) h
  have htail := line_tail hok
  obtain ⟨l1, h1, p1⟩ := next_key (i := 10) (k := bs "OK") rfl (lexCreate buf) [] (line (rspItems reset consoles)) junk (Or.inl rfl) (by
    show buf = _
    rw [hbuf]; simp only [List.append_assoc]; rfl) htail.notIdent htail.nz
  have e0 : (259 : Int) + ((10 : Nat) : Int) = tokOk := by decide
  rw [e0] at h1
  have hil := items_length (rspItems reset consoles)
  have hlen := congrArg List.length hbuf
  simp only [List.length_append, List.length_cons] at hlen
  unfold recvRsp
  rw [rspLoop, h1, Option.bind_some]
  dsimp only
  rw [if_pos rfl, parseRspOk_eq junk _ _ _ _ hok (by omega) p1, Option.map_some]
  unfold rspItems
  rw [List.foldl_append, foldl_rsp]
  cases reset <;> by_cases g : consoles = [] <;> simp [g, Item.applyRsp]

/-! ### Errors -/

theorem plain_default : Plain (bs "unspecified error") := by decide

/-- An error response without its last byte. -/
def errLine (errnum : Nat) (msg : List UInt8) : List UInt8 :=
  protoStr tokError ++ (bs " " ++ protoStr tokCode ++ bs "=" ++ dec errnum) ++ strArg tokMessage msg

theorem dec_nz (n : Nat) : (0 : UInt8) ∉ dec n := fun h => absurd ((dec_spec n).2.1 0 h) (by decide)

theorem errLine_nz {errnum : Nat} {msg : List UInt8} (h : Plain msg) : (0 : UInt8) ∉ errLine errnum msg := by
  unfold errLine
  simp only [List.mem_append, not_or]
  exact ⟨⟨by decide, ⟨⟨by decide, by decide⟩, by decide⟩, dec_nz _⟩, strArg_nz (i := 8) (k := bs "MESSAGE") rfl h⟩

theorem errLine_nl {errnum : Nat} {msg : List UInt8} (h : Plain msg) : (0x0A : UInt8) ∉ errLine errnum msg := by
  unfold errLine
  simp only [List.mem_append, not_or]
  exact ⟨⟨by decide, ⟨⟨by decide, by decide⟩, by decide⟩, fun g => absurd ((dec_spec errnum).2.1 _ g) (by decide)⟩, strArg_nl (i := 8) (k := bs "MESSAGE") rfl h⟩

theorem rspErr_eq (size errnum : Nat) (errmsg : Option (List UInt8)) (h0 : 0 < size) (h : Plain (errmsg.getD (bs "unspecified error"))) :
    rspErr size errnum errmsg = some (if (errLine errnum (errmsg.getD (bs "unspecified error")) ++ bs "\n").length < size then
      some (errLine errnum (errmsg.getD (bs "unspecified error")) ++ bs "\n") else none) := by
  unfold rspErr
  generalize errmsg.getD (bs "unspecified error") = msg at h
  dsimp only
  have e : protoStr tokError ++ bs " " ++ protoStr tokCode ++ bs "=" ++ dec errnum ++ bs " " ++ protoStr tokMessage ++ bs "='" ++ lexEncode msg ++ bs "'\n" =
      errLine errnum msg ++ bs "\n" := by
    have : bs "'\n" = bs "'" ++ bs "\n" := by decide
    rw [this]
    unfold errLine strArg
    simp only [List.append_assoc]
  have hm : maxLine = 1024 := rfl
  have hz : (0 : UInt8) ∉ errLine errnum msg ++ bs "\n" := by
    rw [List.mem_append, not_or]; exact ⟨errLine_nz h, by decide⟩
  rw [if_neg (by have := h.2; omega), e]
  generalize errLine errnum msg ++ bs "\n" = t at hz
  rw [snprintf_eq h0 (by simp; omega), Option.bind_some]
  dsimp only
  by_cases g : t.length < size
  · rw [if_neg (by omega), if_pos g, List.take_of_length_le (by omega), cstr_over hz, Option.map_some]
  · rw [if_pos (by omega), if_neg g]

theorem recvRsp_err (junk : List UInt8) (buf : List UInt8) (errnum : Nat) (msg : List UInt8) (h : Plain msg) (hn : errnum ≤ 2147483647)
    (hbuf : buf = errLine errnum msg ++ bs "\n" ++ 0 :: junk) :
    recvRsp buf = some ({ errnum := if errnum = 0 then 1 else errnum, errmsg := if msg = [] then none else some msg }, false) := by
  have ez : (0 : UInt8) ∉ bs "\n" := by decide
  have hb : bs "=" = [0x3D] := by decide
  have hz1 : (0 : UInt8) ∉ strArg tokMessage msg ++ bs "\n" := by
    rw [List.mem_append, not_or]; exact ⟨strArg_nz (i := 8) (k := bs "MESSAGE") rfl h, ez⟩
  have ht1 := strArg_tail hz1
  have hz2 : (0 : UInt8) ∉ bs " " ++ protoStr tokCode ++ bs "=" ++ dec errnum ++ (strArg tokMessage msg ++ bs "\n") := by
    rw [List.mem_append, not_or]
    refine ⟨?_, hz1⟩
    simp only [List.mem_append, not_or]
    exact ⟨⟨⟨by decide, by decide⟩, by decide⟩, dec_nz _⟩
  have ht2 : Tail (bs " " ++ protoStr tokCode ++ bs "=" ++ dec errnum ++ (strArg tokMessage msg ++ bs "\n")) :=
    Or.inl ⟨hz2, _, by simp only [List.append_assoc]; rfl⟩
  obtain ⟨l1, h1, p1⟩ := next_key (i := 4) (k := bs "ERROR") rfl (lexCreate buf) [] (bs " " ++ protoStr tokCode ++ bs "=" ++ dec errnum ++ (strArg tokMessage msg ++ bs "\n")) junk (Or.inl rfl) (by
    show buf = _
    rw [hbuf]; unfold errLine; simp only [List.append_assoc]; rfl) ht2.notIdent ht2.nz
  have e0 : (259 : Int) + ((4 : Nat) : Int) = tokError := by decide
  rw [e0] at h1
  obtain ⟨l2, h2, p2⟩ := arg_key l1 tokCode 1 (bs "CODE") (bs "=" ++ dec errnum) (strArg tokMessage msg ++ bs "\n") junk rfl rfl (by rw [hb]; rfl) (by
    rw [p1]; simp only [List.append_assoc]) (by rw [List.mem_append, not_or]; exact ⟨by decide, dec_nz _⟩) hz1
  obtain ⟨l3, h3, p3⟩ := next_eq l2 (dec errnum ++ (strArg tokMessage msg ++ bs "\n")) junk (by rw [p2, hb]; simp) (by
    rw [List.mem_append, not_or]; exact ⟨dec_nz _, hz1⟩)
  obtain ⟨l4, h4, p4, t4⟩ := next_int l3 (dec errnum) (strArg tokMessage msg ++ bs "\n") junk (dec_spec errnum).1 (dec_spec errnum).2.1
    (Nat.le_trans (dec_length_le errnum 10 (by omega) (by omega)) (by omega)) (by rw [p3]; simp) ht1.notIdent hz1
  obtain ⟨l5, l6, h5, h6, p6⟩ := arg_str l4 tokMessage 8 (bs "MESSAGE") msg (bs "\n") junk rfl rfl h (by rw [p4]; simp) ez
  have e : bs "\n" = [0x0A] := by decide
  obtain ⟨l7, h7, p7⟩ := next_nl l6 [] junk (by rw [p6, e]; rfl) (by simp)
  have hlen := congrArg List.length hbuf
  have h5' : (protoStr tokError).length = 5 := by decide
  unfold errLine at hlen
  simp only [List.length_append, List.length_cons, h5'] at hlen
  obtain ⟨n, hn'⟩ : ∃ n, buf.length = n + 2 := ⟨buf.length - 2, by omega⟩
  have hint : intField l2 = some (l4, some (dec errnum)) := by
    unfold intField
    rw [h3, Option.bind_some, if_pos rfl, h4, Option.bind_some, if_pos rfl, t4]
  unfold recvRsp
  rw [rspLoop, h1, Option.bind_some]
  dsimp only
  rw [if_neg (by decide), if_pos rfl, hn', parseRspErr, h2, Option.bind_some]
  dsimp only
  rw [if_pos rfl, hint, Option.bind_some]
  dsimp only
  rw [atoi_dec errnum hn, Option.bind_some, parseRspErr, h5, Option.bind_some]
  dsimp only
  rw [if_neg (by decide), if_pos rfl, h6, Option.bind_some]
  dsimp only
  rw [Option.getD_some, parseRspErr, h7, Option.bind_some]
  dsimp only
  rw [if_neg (by decide), if_neg (by decide), if_pos (Or.inr rfl), Option.map_some, plain_decode h]
  have : lexEncode msg = [] ↔ msg = [] := by simp [lexEncode]
  by_cases g : errnum = 0 <;> by_cases g2 : msg = [] <;> simp [g, g2, lexEncode]

end Conman
