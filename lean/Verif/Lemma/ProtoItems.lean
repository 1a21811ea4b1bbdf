import Verif.Lemma.Proto

/-
Lemmas about the lines of the protocol: a request as a list of arguments.
-/
namespace Conman
open Spec

/-- An argument of a request. -/
inductive Item where
  | con (s : List UInt8)
  | opt (i : Nat)

def Item.render : Item → List UInt8
  | con s => strArg tokConsole s
  | opt i => optArg (259 + (i : Int))

theorem Item.render_con (s : List UInt8) : (Item.con s).render = strArg tokConsole s := rfl
theorem Item.render_opt (i : Nat) : (Item.opt i).render = optArg (259 + (i : Int)) := rfl

def Item.ok : Item → Prop
  | con s => Plain s
  | opt i => i < 18

def Item.apply (q : SrvReq) : Item → SrvReq
  | con s => if s = [] then q else { q with consoles := q.consoles ++ [s] }
  | opt i => setOpt q (259 + (i : Int))

theorem getProto {i : Nat} (h : i < 18) : ∃ k, protoStrs[i]? = some k := by
  have : protoStrs.length = 18 := by decide
  exact ⟨_, List.getElem?_eq_getElem (by omega)⟩

theorem Item.nz {x : Item} (h : x.ok) : (0 : UInt8) ∉ x.render ∧ (0x0A : UInt8) ∉ x.render := by
  cases x with
  | con s => exact ⟨strArg_nz (i := 3) (k := bs "CONSOLE") rfl h, strArg_nl (i := 3) (k := bs "CONSOLE") rfl h⟩
  | opt i =>
    obtain ⟨k, hk⟩ := getProto h
    rw [Item.render_opt]
    unfold optArg
    rw [protoStr_get hk]
    exact optArg_clean k (List.mem_of_getElem? hk)

theorem Item.lead (x : Item) : ∃ y, x.render = bs " " ++ y := by
  cases x with
  | con s => exact ⟨_, by rw [Item.render_con]; unfold strArg; simp only [List.append_assoc]; rfl⟩
  | opt i => exact ⟨_, by rw [Item.render_opt]; unfold optArg; simp only [List.append_assoc]; rfl⟩

/-- The rest of a line. -/
def line (xs : List Item) : List UInt8 := (xs.map Item.render).flatten ++ bs "\n"

theorem line_clean {xs : List Item} (h : ∀ x ∈ xs, x.ok) : (0 : UInt8) ∉ (xs.map Item.render).flatten ∧ (0x0A : UInt8) ∉ (xs.map Item.render).flatten := by
  constructor
  all_goals
    intro hm
    obtain ⟨l, hl, hm⟩ := List.mem_flatten.1 hm
    obtain ⟨x, hx, rfl⟩ := List.mem_map.1 hl
  · exact (Item.nz (h x hx)).1 hm
  · exact (Item.nz (h x hx)).2 hm

theorem line_tail {xs : List Item} (h : ∀ x ∈ xs, x.ok) : Tail (line xs) := by
  have hz : (0 : UInt8) ∉ line xs := by
    unfold line
    simp only [List.mem_append, not_or]
    exact ⟨(line_clean h).1, by decide⟩
  cases xs with
  | nil => exact Or.inr ⟨hz, rfl⟩
  | cons x xs =>
    obtain ⟨y, hy⟩ := x.lead
    refine Or.inl ⟨hz, ?_⟩
    unfold line
    rw [List.map_cons, List.flatten_cons, hy]
    exact ⟨_, by simp only [List.append_assoc]; rfl⟩

theorem bsSpace : bs " " = [0x20] := by decide

/-- First token of an argument. -/
theorem arg_key (l : Lex) (t : Int) (i : Nat) (k x rest junk : List UInt8) (hi : protoStrs[i]? = some k) (ht : t = 259 + (i : Int))
    (hx : x.head? = some 0x3D) (hpos : l.pos = bs " " ++ protoStr t ++ x ++ (rest ++ 0 :: junk)) (hxz : (0 : UInt8) ∉ x) (hz : (0 : UInt8) ∉ rest) :
    ∃ l', lexNext protoStrs l = some (l', t) ∧ l'.pos = x ++ (rest ++ 0 :: junk) := by
  subst ht
  rw [protoStr_get hi, bsSpace] at hpos
  obtain ⟨l', h1, h2⟩ := next_key hi l [0x20] (x ++ rest) junk (Or.inr rfl) (by rw [hpos]; simp) (by
    rintro ⟨y, hy, hd⟩
    rw [List.head?_append, hx] at hy
    simp at hy
    subst hy
    revert hd; decide) (by simp only [List.mem_append, not_or]; exact ⟨hxz, hz⟩)
  exact ⟨l', h1, by rw [h2]; simp⟩

theorem parseCmdOpts_eq (junk : List UInt8) : ∀ (xs : List Item) (n : Nat) (l : Lex) (q : SrvReq), (∀ x ∈ xs, x.ok) → xs.length < n →
    l.pos = line xs ++ 0 :: junk → ∃ l', parseCmdOpts n l q = some (l', xs.foldl Item.apply q) ∧ l'.pos = 0 :: junk := by
  intro xs
  induction xs with
  | nil =>
    intro n l q _ hn hpos
    cases n with
    | zero => omega
    | succ n =>
      have e : line [] = [0x0A] := by decide
      rw [e] at hpos
      obtain ⟨l', h1, h2⟩ := next_nl l [] junk (by rw [hpos]; rfl) (by simp)
      refine ⟨l', ?_, h2⟩
      rw [parseCmdOpts, h1, Option.bind_some]
      dsimp only
      rw [if_neg (by decide), if_neg (by decide), if_pos (Or.inr rfl)]
      rfl
  | cons x xs ih =>
    intro n l q hok hn hpos
    have hox : x.ok := hok x (by simp)
    have hoxs : ∀ y ∈ xs, y.ok := fun y hy => hok y (by simp [hy])
    have hl : line (x :: xs) = x.render ++ line xs := by unfold line; simp
    have htail := line_tail hoxs
    rw [hl] at hpos
    cases n with
    | zero => simp at hn
    | succ n =>
      simp only [List.length_cons] at hn
      cases x with
      | con s =>
        obtain ⟨l1, h1, p1⟩ := arg_key l tokConsole 3 (bs "CONSOLE") (bs "='" ++ (lexEncode s ++ bs "'")) (line xs) junk rfl rfl (by
            have : bs "='" = [0x3D, 0x27] := by decide
            rw [this]; rfl) (by
            rw [hpos, Item.render_con]; unfold strArg; simp only [List.append_assoc]) (by
            simp only [List.mem_append, not_or]; exact ⟨by decide, encode_nz hox, by decide⟩) htail.nz
        obtain ⟨l2, h2, p2⟩ := strField_eq l1 s (line xs) junk hox (by rw [p1]; simp only [List.append_assoc]) htail.nz
        obtain ⟨l3, h3, p3⟩ := ih n l2 (Item.apply q (.con s)) hoxs (by omega) p2
        refine ⟨l3, ?_, p3⟩
        rw [parseCmdOpts, h1, Option.bind_some]
        dsimp only
        rw [if_pos rfl, h2, Option.bind_some, fieldVal_eq hox, List.foldl_cons, ← h3]
        unfold Item.apply
        by_cases g : s = []
        · simp [g, addConsole]
        · simp [g, addConsole]
      | opt i =>
        obtain ⟨k, hk⟩ := getProto hox
        have hkz := (proto_letters k (List.mem_of_getElem? hk)).2.2
        obtain ⟨l1, h1, p1⟩ := arg_key l tokOption 11 (bs "OPTION") (bs "=" ++ k) (line xs) junk rfl rfl (by
            have : bs "=" = [0x3D] := by decide
            rw [this]; rfl) (by
            rw [hpos, Item.render_opt]; unfold optArg; rw [protoStr_get hk]; simp only [List.append_assoc]) (by
            simp only [List.mem_append, not_or]; exact ⟨by decide, hkz⟩) htail.nz
        obtain ⟨l2, h2, p2⟩ := optField_eq hk l1 (line xs) junk (by rw [p1]; simp only [List.append_assoc]) htail.notIdent htail.nz
        obtain ⟨l3, h3, p3⟩ := ih n l2 (Item.apply q (.opt i)) hoxs (by omega) p2
        refine ⟨l3, ?_, p3⟩
        rw [parseCmdOpts, h1, Option.bind_some]
        dsimp only
        rw [if_neg (by decide), if_pos rfl, h2, Option.bind_some, List.foldl_cons, ← h3]
        rfl

def optItems (r : ReqMsg) : List Item :=
  (if r.quiet then [.opt 13] else []) ++ (if r.regex then [.opt 14] else []) ++
    (if r.cmd = .connect then
      (if r.force then [.opt 5] else []) ++ (if r.join then [.opt 7] else []) ++ (if r.bcast then [.opt 0] else [])
    else [])

def reqItems (r : ReqMsg) : List Item := optItems r ++ r.consoles.map .con

theorem reqItems_ok {r : ReqMsg} (h : ∀ c ∈ r.consoles, Plain c) : ∀ x ∈ reqItems r, x.ok := by
  intro x hx
  rcases List.mem_append.1 hx with hx | hx
  · have : ∃ i, x = .opt i ∧ i < 18 := by
      unfold optItems at hx
      rcases List.mem_append.1 hx with hx | hx
      · rcases List.mem_append.1 hx with hx | hx
        · split at hx <;> simp at hx; exact ⟨13, hx, by omega⟩
        · split at hx <;> simp at hx; exact ⟨14, hx, by omega⟩
      · split at hx
        · rcases List.mem_append.1 hx with hx | hx
          · rcases List.mem_append.1 hx with hx | hx
            · split at hx <;> simp at hx; exact ⟨5, hx, by omega⟩
            · split at hx <;> simp at hx; exact ⟨7, hx, by omega⟩
          · split at hx <;> simp at hx; exact ⟨0, hx, by omega⟩
        · simp at hx
    obtain ⟨i, rfl, hi⟩ := this
    exact hi
  · obtain ⟨s, hs, rfl⟩ := List.mem_map.1 hx
    exact h s hs

theorem reqOpts_items (r : ReqMsg) : reqOpts r = (optItems r).map Item.render := by
  unfold reqOpts optItems
  cases r.quiet <;> cases r.regex <;> cases r.force <;> cases r.join <;> cases r.bcast <;> by_cases h : r.cmd = .connect <;> simp [h] <;> decide

theorem request_eq (size : Nat) (r : ReqMsg) (h0 : 0 < size) (h : ∀ c ∈ r.consoles, Plain c) :
    request size r = some (if (protoStr (cmdTok r.cmd) ++ line (reqItems r)).length < size then some (protoStr (cmdTok r.cmd) ++ line (reqItems r)) else none) := by
  have hps : [protoStr (cmdTok r.cmd)] ++ reqOpts r ++ r.consoles.map (strArg tokConsole) ++ [bs "\n"] =
      [protoStr (cmdTok r.cmd)] ++ (reqItems r).map Item.render ++ [bs "\n"] := by
    rw [reqOpts_items]
    unfold reqItems
    simp only [List.map_append, List.map_map, List.append_assoc]
    rfl
  have hfl : ([protoStr (cmdTok r.cmd)] ++ (reqItems r).map Item.render ++ [bs "\n"]).flatten = protoStr (cmdTok r.cmd) ++ line (reqItems r) := by
    unfold line; simp
  unfold request
  rw [hps, buildMsg_eq size _ (bs "\n") h0 ?_ (by rw [List.getLast?_append]; rfl) (by decide), hfl]
  intro p hp
  simp only [List.mem_append, List.mem_singleton] at hp
  rcases hp with (rfl | hp) | rfl
  · cases r.cmd <;> decide
  · obtain ⟨x, hx, rfl⟩ := List.mem_map.1 hp
    exact (Item.nz (reqItems_ok h x hx)).1
  · decide

theorem foldl_opts (r : ReqMsg) (q : SrvReq) (hq : q.quiet = false ∧ q.regex = false ∧ q.force = false ∧ q.join = false ∧ q.bcast = false) :
    (optItems r).foldl Item.apply q = { q with quiet := r.quiet, regex := r.regex, force := r.force && (r.cmd = .connect), join := r.join && (r.cmd = .connect), bcast := r.bcast && (r.cmd = .connect) } := by
  obtain ⟨h1, h2, h3, h4, h5⟩ := hq
  cases q
  simp only at h1 h2 h3 h4 h5
  subst h1 h2 h3 h4 h5
  unfold optItems
  cases r.quiet <;> cases r.regex <;> cases r.force <;> cases r.join <;> cases r.bcast <;> by_cases h : r.cmd = .connect <;>
    simp [h, Item.apply, setOpt, tokBroadcast, tokForce, tokJoin, tokQuiet, tokRegex]

theorem foldl_cons_items (cs : List (List UInt8)) : ∀ q : SrvReq, (cs.map Item.con).foldl Item.apply q = { q with consoles := q.consoles ++ cs.filter (· ≠ []) } := by
  induction cs with
  | nil => intro q; simp
  | cons c cs ih =>
    intro q
    rw [List.map_cons, List.foldl_cons, ih]
    unfold Item.apply
    by_cases h : c = []
    · simp [h]
    · simp [h]

theorem reqLoop_eq (junk : List UInt8) (r : ReqMsg) (n : Nat) (l : Lex) (q : SrvReq) (h : ∀ c ∈ r.consoles, Plain c) (hn : (reqItems r).length < n + 1) (hn0 : 0 < n)
    (hpos : l.pos = protoStr (cmdTok r.cmd) ++ line (reqItems r) ++ 0 :: junk) :
    reqLoop (n + 1) l q = some ((reqItems r).foldl Item.apply { q with cmd := some r.cmd }) := by
  have hok := reqItems_ok h
  have htail := line_tail hok
  obtain ⟨m, rfl⟩ : ∃ m, n = m + 1 := ⟨n - 1, by omega⟩
  have key : ∀ (i : Nat) (k : List UInt8), protoStrs[i]? = some k → cmdTok r.cmd = 259 + (i : Int) →
      ∃ l', lexNext protoStrs l = some (l', cmdTok r.cmd) ∧ l'.pos = line (reqItems r) ++ 0 :: junk := by
    intro i k hi ht
    rw [ht, protoStr_get hi] at hpos
    rw [ht]
    exact next_key hi l [] _ junk (Or.inl rfl) (by rw [hpos]; simp) htail.notIdent htail.nz
  have fin : ∀ (l2 : Lex) (q2 : SrvReq), l2.pos = 0 :: junk → reqLoop (m + 1) l2 q2 = some q2 := by
    intro l2 q2 hp
    obtain ⟨l3, h3, _⟩ := next_eof l2 junk hp
    rw [reqLoop, h3, Option.bind_some]
    dsimp only
    rw [if_neg (by decide), if_neg (by decide), if_neg (by decide), if_pos (Or.inl rfl)]
  rw [reqLoop]
  cases hc : r.cmd with
  | connect =>
    obtain ⟨l1, h1, p1⟩ := key 2 (bs "CONNECT") rfl (by rw [hc]; rfl)
    rw [hc] at h1
    rw [h1, Option.bind_some]
    dsimp only
    rw [if_pos (by decide)]
    obtain ⟨l2, h2, p2⟩ := parseCmdOpts_eq junk (reqItems r) (m + 1 + 1) l1 { q with cmd := some .connect } hok hn p1
    rw [h2, Option.bind_some]
    exact fin l2 _ p2
  | monitor =>
    obtain ⟨l1, h1, p1⟩ := key 9 (bs "MONITOR") rfl (by rw [hc]; rfl)
    rw [hc] at h1
    rw [h1, Option.bind_some]
    dsimp only
    rw [if_neg (by decide), if_pos (by decide)]
    obtain ⟨l2, h2, p2⟩ := parseCmdOpts_eq junk (reqItems r) (m + 1 + 1) l1 { q with cmd := some .monitor } hok hn p1
    rw [h2, Option.bind_some]
    exact fin l2 _ p2
  | query =>
    obtain ⟨l1, h1, p1⟩ := key 12 (bs "QUERY") rfl (by rw [hc]; rfl)
    rw [hc] at h1
    rw [h1, Option.bind_some]
    dsimp only
    rw [if_neg (by decide), if_neg (by decide), if_pos (by decide)]
    obtain ⟨l2, h2, p2⟩ := parseCmdOpts_eq junk (reqItems r) (m + 1 + 1) l1 { q with cmd := some .query } hok hn p1
    rw [h2, Option.bind_some]
    exact fin l2 _ p2

theorem render_pos (x : Item) : 0 < x.render.length := by
  obtain ⟨y, hy⟩ := x.lead
  rw [hy, bsSpace]; simp

theorem items_length (xs : List Item) : xs.length < (line xs).length := by
  unfold line
  induction xs with
  | nil => decide
  | cons x xs ih =>
    have := render_pos x
    simp only [List.map_cons, List.flatten_cons, List.length_append, List.length_cons] at *
    omega

end Conman
