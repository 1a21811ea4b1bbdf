import Verif.Spec.Disk
import Verif.Lemma.LogFiles
import Verif.Lemma.WorldLogText

/-! The files of logs and what was sent to them. -/
namespace Conman
open Spec

/-- What a list of effects adds to a file. -/
def toFile (file : Nat → Option Nat) (j : Nat) (l : List Fx) : List UInt8 :=
  l.flatMap fun e => match e with | .sent i d => if file i = some j then d else [] | _ => []

theorem diskPut_data (file : Nat → Option Nat) (fs : LDir) (e : Fx) (j : Nat) :
    (diskPut file fs e).data j = fs.data j ++ toFile file j [e] ∧ (diskPut file fs e).ino = fs.ino ∧ (diskPut file fs e).next = fs.next := by
  cases e with
  | sent i d =>
    simp only [diskPut, toFile, List.flatMap_cons, List.flatMap_nil, List.append_nil]
    cases h : file i with
    | none => simp
    | some k =>
      simp only [LDir.append, and_true, Option.some.injEq]
      by_cases hj : j = k
      · subst hj; simp
      · rw [if_neg hj, if_neg (fun e => hj e.symm), List.append_nil]
  | _ => simp [diskPut, toFile]

theorem diskPuts_data (file : Nat → Option Nat) (l : List Fx) : ∀ (fs : LDir), (∀ j, (l.foldl (diskPut file) fs).data j = fs.data j ++ toFile file j l) ∧
    (l.foldl (diskPut file) fs).ino = fs.ino ∧ (l.foldl (diskPut file) fs).next = fs.next := by
  induction l with
  | nil => intro fs; exact ⟨fun j => by simp [toFile], rfl, rfl⟩
  | cons e l ih =>
    intro fs
    obtain ⟨a, b, c⟩ := ih (diskPut file fs e)
    refine ⟨fun j => ?_, ?_, ?_⟩
    · rw [List.foldl_cons, a j, (diskPut_data file fs e j).1]
      simp [toFile]
    · rw [List.foldl_cons, b, (diskPut_data file fs e 0).2.1]
    · rw [List.foldl_cons, c, (diskPut_data file fs e 0).2.2]

theorem toFile_none (file : Nat → Option Nat) (j : Nat) (l : List Fx) (h : ∀ i d, Fx.sent i d ∈ l → file i ≠ some j) : toFile file j l = [] := by
  unfold toFile
  rw [List.flatMap_eq_nil_iff]
  intro e he
  split
  · rename_i i d
    rw [if_neg (h i d he)]
  · rfl

theorem toFile_sent (file : Nat → Option Nat) (j k : Nat) (l : List Fx) (h : ∀ i d, Fx.sent i d ∈ l → (file i = some j ↔ i = k)) : toFile file j l = sentTo k l := by
  induction l with
  | nil => rfl
  | cons e l ih =>
    have ih := ih (fun i d hi => h i d (List.mem_cons_of_mem _ hi))
    have h1 : toFile file j (e :: l) = toFile file j [e] ++ toFile file j l := by simp [toFile]
    have h2 : sentTo k (e :: l) = sentTo k [e] ++ sentTo k l := by simp [sentTo]
    rw [h1, h2, ih]
    congr 1
    cases e with
    | sent i d =>
      have := h i d (List.mem_cons_self ..)
      simp [toFile, sentTo, this]
    | _ => rfl

/-- What the log that is written to the file has sent. -/
def wrote (own : Option Nat) (fx : List Fx) : List UInt8 := match own with
  | some l => sentTo l fx
  | none => []

structure DiskInv (nm : List UInt8) (own : Option Nat) (base : List UInt8) (zero : Bool) (d : Disk) : Prop where
  fin : FInv d.w
  ok : d.fs.Ok
  files : ∀ m j, d.file m = some j → j < d.fs.next
  uniq : oneName d.fs nm
  isLog : ∀ l, own = some l → (d.w.obj l).kind = .logfile ∧ l ∈ d.w.live
  fd : ∀ l, own = some l → (d.w.obj l).fd = true → ∃ i, d.file l = some i
  mine : ∀ l, own = some l → ∀ i, d.file l = some i → d.fs.ino nm = some i
  others : ∀ m, own ≠ some m → ∀ j, d.file m = some j → d.fs.ino nm ≠ some j
  tr : ∀ l, own = some l → d.trunc l = true → zero = true ∧ (d.w.obj l).fd = false ∧ sentTo l d.w.fx = [] ∧ fileAt d.fs nm = base
  trf : ∀ l, own = some l → d.trunc l = true → d.file l = none
  data : ∃ b, (b = base ∨ b = [] ∧ zero = true ∧ own ≠ none) ∧ fileAt d.fs nm = b ++ wrote own d.w.fx

theorem wrote_append (own : Option Nat) (a b : List Fx) : wrote own (a ++ b) = wrote own a ++ wrote own b := by
  cases own with
  | none => rfl
  | some l => exact sentTo_append l a b

theorem fileAt_some {fs : LDir} {nm : List UInt8} {i : Nat} (h : fs.ino nm = some i) : fileAt fs nm = fs.data i := by
  unfold fileAt; rw [h]

theorem fileAt_none {fs : LDir} {nm : List UInt8} (h : fs.ino nm = none) : fileAt fs nm = [] := by
  unfold fileAt; rw [h]

/-- What is written by a step arrives in the file, and nothing else. -/
theorem take_file {nm : List UInt8} {own : Option Nat} {e : Disk} {w' : World} {x : List Fx} (hx : w'.fx = e.w.fx ++ x)
    (hs : ∀ l, own = some l → ∀ d, Fx.sent l d ∈ x → e.file l ≠ none)
    (mine : ∀ l, own = some l → ∀ i, e.file l = some i → e.fs.ino nm = some i)
    (others : ∀ m, own ≠ some m → ∀ j, e.file m = some j → e.fs.ino nm ≠ some j) :
    fileAt (e.take w').fs nm = fileAt e.fs nm ++ wrote own x := by
  have hdrop : w'.fx.drop e.w.fx.length = x := by rw [hx, List.drop_left]
  obtain ⟨p1, p2, p3⟩ := diskPuts_data e.file x e.fs
  have hfs : (e.take w').fs = x.foldl (diskPut e.file) e.fs := by unfold Disk.take; dsimp only; rw [hdrop]
  rw [hfs]
  cases hi : e.fs.ino nm with
  | none =>
    rw [fileAt_none hi, fileAt_none (by rw [p2]; exact hi)]
    cases own with
    | none => rfl
    | some l =>
      symm
      refine sentTo_none l x fun d hd => ?_
      cases hf : e.file l with
      | none => exact hs l rfl d hd hf
      | some i => have := mine l rfl i hf; rw [hi] at this; cases this
  | some i =>
    rw [fileAt_some hi, fileAt_some (by rw [p2]; exact hi), p1]
    congr 1
    cases own with
    | none => exact toFile_none _ _ _ fun m d _ h => others m (by simp) i h hi
    | some l =>
      refine toFile_sent _ _ _ _ fun m d hm => ⟨fun h => ?_, fun h => ?_⟩
      · by_cases g : m = l
        · exact g
        · exact absurd hi (others m (fun e => g (Option.some.inj e).symm) i h)
      · subst h
        cases hf : e.file m with
        | none => exact absurd hf (hs m rfl d hm)
        | some j => have := mine m rfl j hf; rw [hi] at this; exact this.symm

theorem take_inv {nm : List UInt8} {own : Option Nat} {base : List UInt8} {zero : Bool} {e : Disk} {w' : World} {x : List Fx}
    (fin : FInv w') (ok : e.fs.Ok) (files : ∀ m j, e.file m = some j → j < e.fs.next) (uniq : oneName e.fs nm)
    (isLog : ∀ l, own = some l → (w'.obj l).kind = .logfile ∧ l ∈ w'.live)
    (hfd : ∀ l, own = some l → (w'.obj l).fd = true → ∃ i, e.file l = some i)
    (mine : ∀ l, own = some l → ∀ i, e.file l = some i → e.fs.ino nm = some i)
    (others : ∀ m, own ≠ some m → ∀ j, e.file m = some j → e.fs.ino nm ≠ some j)
    (hx : w'.fx = e.w.fx ++ x) (hs : ∀ l, own = some l → ∀ d, Fx.sent l d ∈ x → e.file l ≠ none)
    (tr : ∀ l, own = some l → e.trunc l = true → zero = true ∧ (w'.obj l).fd = false ∧ sentTo l e.w.fx = [] ∧ fileAt e.fs nm = base ∧ e.file l = none)
    (data : ∃ b, (b = base ∨ b = [] ∧ zero = true ∧ own ≠ none) ∧ fileAt e.fs nm = b ++ wrote own e.w.fx) :
    DiskInv nm own base zero (e.take w') := by
  have hdrop : w'.fx.drop e.w.fx.length = x := by rw [hx, List.drop_left]
  obtain ⟨p1, p2, p3⟩ := diskPuts_data e.file x e.fs
  have hfs : (e.take w').fs = x.foldl (diskPut e.file) e.fs := by unfold Disk.take; dsimp only; rw [hdrop]
  have ino : (e.take w').fs.ino = e.fs.ino := by rw [hfs, p2]
  have nx : (e.take w').fs.next = e.fs.next := by rw [hfs, p3]
  have dat : ∀ j, (e.take w').fs.data j = e.fs.data j ++ toFile e.file j x := by intro j; rw [hfs, p1]
  have sub : ∀ m j, (e.take w').file m = some j → e.file m = some j := by
    intro m j h
    unfold Disk.take at h
    dsimp only at h
    split at h
    · exact h
    · cases h
  have key := take_file hx hs mine others
  have fx : (e.take w').w.fx = e.w.fx ++ x := by rw [← hx]; rfl
  refine ⟨fin.tick _, ⟨?_, ?_⟩, ?_, ?_, isLog, ?_, ?_, ?_, ?_, ?_, ?_⟩
  · rw [ino, nx]; exact ok.names
  · intro i hi
    rw [nx] at hi
    rw [dat, ok.fresh i hi, toFile_none _ _ _ fun m d _ h => absurd (files m i h) (by omega)]
    rfl
  · intro m j h; rw [nx]; exact files m j (sub m j h)
  · unfold oneName; rw [ino]; exact uniq
  · intro l hl hf
    have hf : (w'.obj l).fd = true := hf
    obtain ⟨i, hi⟩ := hfd l hl hf
    refine ⟨i, ?_⟩
    unfold Disk.take
    dsimp only
    rw [if_pos hf]; exact hi
  · intro l hl i hi; rw [ino]; exact mine l hl i (sub l i hi)
  · intro m hm j hj; rw [ino]; exact others m hm j (sub m j hj)
  · intro l hl ht
    obtain ⟨t1, t2, t3, t4, t5⟩ := tr l hl ht
    have hn : sentTo l x = [] := sentTo_none l x fun d hd => hs l hl d hd t5
    refine ⟨t1, t2, ?_, ?_⟩
    · rw [fx, sentTo_append, t3, hn]; rfl
    · rw [key, t4, hl]; show base ++ sentTo l x = base; rw [hn, List.append_nil]
  · intro l hl ht
    cases hf : (e.take w').file l with
    | none => rfl
    | some i => have := sub l i hf; rw [(tr l hl ht).2.2.2.2] at this; cases this
  · obtain ⟨b, hb, hd⟩ := data
    exact ⟨b, hb, by rw [key, hd, fx, wrote_append, List.append_assoc]⟩

theorem open_snd (d : LDir) (nm : List UInt8) (tr : Bool) : (d.ino nm = some (d.open nm tr).2 ∧ (d.open nm tr).1.ino = d.ino ∧ (d.open nm tr).1.next = d.next) ∨
    (d.ino nm = none ∧ (d.open nm tr).2 = d.next ∧ (d.open nm tr).1.next = d.next + 1) := by
  unfold LDir.open
  cases h : d.ino nm with
  | none => exact .inr ⟨rfl, rfl, rfl⟩
  | some i => exact .inl ⟨rfl, rfl, rfl⟩

/-- A file that is not the one opened stays as it is. -/
theorem open_other {d : LDir} (ok : d.Ok) (nm x : List UInt8) (tr : Bool) (hx : x ≠ nm) (un : oneName d nm) :
    fileAt (d.open x tr).1 nm = fileAt d nm ∧ (d.open x tr).1.ino nm = d.ino nm ∧ oneName (d.open x tr).1 nm ∧ d.ino nm ≠ some (d.open x tr).2 := by
  obtain ⟨a1, a2, a3, a4⟩ := open_ino d x tr ok.names
  have hi := a3 nm (fun e => hx e.symm)
  have hne : d.ino nm ≠ some (d.open x tr).2 := by
    intro h
    rcases open_snd d x tr with ⟨e, _, _⟩ | ⟨_, e, _⟩
    · exact hx (un x _ h e)
    · rw [e] at h; have := ok.names _ _ h; omega
  refine ⟨?_, hi, ?_, hne⟩
  · cases h : d.ino nm with
    | none => rw [fileAt_none h, fileAt_none (by rw [hi, h])]
    | some i =>
      rw [fileAt_some h, fileAt_some (by rw [hi, h])]
      exact open_data d x tr i fun e => hne (by rw [h, e])
  · intro y i h1 h2
    rw [hi] at h1
    by_cases hy : y = x
    · subst hy; rw [a1] at h2; cases h2; exact absurd h1 hne
    · rw [a3 y hy] at h2; exact un y i h1 h2

/-- The file opened. -/
theorem open_this {d : LDir} (ok : d.Ok) (nm : List UInt8) (tr : Bool) (un : oneName d nm) :
    (d.open nm tr).1.ino nm = some (d.open nm tr).2 ∧ oneName (d.open nm tr).1 nm ∧ (tr = false → fileAt (d.open nm tr).1 nm = fileAt d nm) ∧
    (fileAt (d.open nm tr).1 nm = fileAt d nm ∨ fileAt (d.open nm tr).1 nm = []) := by
  obtain ⟨a1, a2, a3, a4⟩ := open_ino d nm tr ok.names
  have hc : fileAt (d.open nm tr).1 nm = fileAt d nm ∨ (fileAt (d.open nm tr).1 nm = [] ∧ tr = true) := by
    rw [fileAt_some a1]
    rcases open_data_cases d nm tr ok.fresh (d.open nm tr).2 with g | ⟨g, g1, _⟩
    · rcases open_snd d nm tr with ⟨e, _, _⟩ | ⟨e, e2, _⟩
      · left; rw [g, fileAt_some e]
      · left; rw [g, fileAt_none e, e2, ok.fresh _ (Nat.le_refl _)]
    · exact .inr ⟨g, g1⟩
  refine ⟨a1, ?_, ?_, ?_⟩
  · intro y i h1 h2
    by_cases hy : y = nm
    · exact hy
    · rw [a1] at h1; cases h1
      rw [a3 y hy] at h2
      rcases open_snd d nm tr with ⟨e, _, _⟩ | ⟨_, e, _⟩
      · exact un y _ e h2
      · rw [e] at h2; have := ok.names _ _ h2; omega
  · intro ht
    rcases hc with h | ⟨_, h⟩
    · exact h
    · rw [ht] at h; cases h
  · rcases hc with h | ⟨h, _⟩
    · exact .inl h
    · exact .inr h

theorem open_ok {d : LDir} (ok : d.Ok) (nm : List UInt8) (tr : Bool) : (d.open nm tr).1.Ok :=
  ⟨(open_ino d nm tr ok.names).2.2.2, open_fresh d nm tr ok.fresh⟩

/-- Opening a log: the objects. -/
theorem logOpen_world {env : Env} {w w' : World} (m : Nat) (ok : Bool) (hk : (w.obj m).kind = .logfile) (h : w.step env (.logOpen m ok) = some w') :
    w'.fx = w.fx ∧ w'.live = w.live ∧ (∀ i, i ≠ m → w'.obj i = w.obj i) ∧ (w'.obj m).fd = ok ∧ (w'.obj m).kind = .logfile := by
  simp only [World.step, Option.some.injEq] at h
  rw [if_pos hk] at h
  subst h
  refine ⟨rfl, rfl, fun i hi => by rw [World.mod_obj, if_neg hi], ?_, ?_⟩
  · rw [World.mod_self]
    cases ok with
    | true =>
      rw [if_pos rfl]
      exact (SameFlags.write _ _ false).fd
    | false => rfl
  · rw [World.mod_self]
    cases ok with
    | true =>
      rw [if_pos rfl]
      exact (SameFlags.write _ _ false).kind.trans hk
    | false => exact hk

/-- The cases of opening a log. -/
theorem open_cases {c : SConf} {pid : Int} {d : Disk} {m : Nat} {ok : Bool} {tm : UInt8 → List UInt8} {o : Opened} (h : d.open c pid m ok tm = some o) :
    (o.ok = false ∧ o.file = none ∧ o.fs = d.fs ∧ (o.trunc = true → d.trunc m = true)) ∨
    ∃ x, c.logName pid tm m = some (some x) ∧ o.fs = (d.fs.open x (d.trunc m)).1 ∧ o.trunc = false ∧
      (o.ok = false ∧ o.file = none ∨ o.ok = true ∧ o.file = some (d.fs.open x (d.trunc m)).2) := by
  unfold Disk.open at h
  split at h
  · cases h
  · cases h; exact .inl ⟨rfl, rfl, rfl, fun e => e⟩
  · rename_i x hx
    split at h
    · cases h; exact .inl ⟨rfl, rfl, rfl, fun e => by cases e⟩
    · split at h
      · cases h; exact .inr ⟨x, hx, rfl, rfl, .inl ⟨rfl, rfl⟩⟩
      · cases h; exact .inr ⟨x, hx, rfl, rfl, .inr ⟨rfl, rfl⟩⟩

theorem openLog_inv {c : SConf} {pid : Int} {env : Env} {nm : List UInt8} {own : Option Nat} {base : List UInt8} {zero : Bool} {d : Disk} {w' : World} {m : Nat} {ok : Bool}
    {tm : UInt8 → List UInt8} {o : Opened} (I : DiskInv nm own base zero d) (hk : (d.w.obj m).kind = .logfile) (ho : d.open c pid m ok tm = some o)
    (hn : ∀ x, c.logName pid tm m = some (some x) → (x = nm ↔ own = some m)) (hw : d.w.step env (.logOpen m o.ok) = some w') :
    DiskInv nm own base zero
      (({ d with fs := o.fs, file := fun i => if i = m then o.file else d.file i, trunc := fun i => if i = m then o.trunc else d.trunc i } : Disk).take w') := by
  obtain ⟨f1, f2, f3, f4, f5⟩ := logOpen_world m o.ok hk hw
  have fin := I.fin.step _ hw
  have isLog : ∀ l, own = some l → (w'.obj l).kind = .logfile ∧ l ∈ w'.live := by
    intro l hl
    refine ⟨?_, by rw [f2]; exact (I.isLog l hl).2⟩
    by_cases e : l = m
    · rw [e]; exact f5
    · rw [f3 l e]; exact (I.isLog l hl).1
  have hs : ∀ (f : Nat → Option Nat) (l : Nat), own = some l → ∀ d, Fx.sent l d ∈ ([] : List Fx) → f l ≠ none := by
    intro f l _ d hd; cases hd
  have hx : w'.fx = d.w.fx ++ [] := by rw [f1, List.append_nil]
  rcases open_cases ho with ⟨q1, q2, q3, q4⟩ | ⟨x, q1, q2, q3, q4⟩
  · have sub : ∀ i j, (if i = m then o.file else d.file i) = some j → d.file i = some j := by
      intro i j h
      split at h
      · rw [q2] at h; cases h
      · exact h
    refine take_inv (x := []) fin (by rw [q3]; exact I.ok) (fun i j h => by dsimp only; rw [q3]; exact I.files i j (sub i j h)) (by dsimp only; rw [q3]; exact I.uniq) isLog ?_ ?_ ?_ hx
      (hs _) ?_ ?_
    · intro l hl hf
      by_cases e : l = m
      · rw [e, f4, q1] at hf; cases hf
      · rw [f3 l e] at hf; dsimp only; rw [if_neg e]; exact I.fd l hl hf
    · intro l hl i hi; dsimp only; rw [q3]; exact I.mine l hl i (sub l i hi)
    · intro i hi j hj; dsimp only; rw [q3]; exact I.others i hi j (sub i j hj)
    · intro l hl ht
      dsimp only at ht ⊢
      by_cases e : l = m
      · rw [if_pos e] at ht
        obtain ⟨t1, t2, t3, t4⟩ := I.tr l hl (by rw [e]; exact q4 ht)
        refine ⟨t1, by rw [e, f4]; exact q1, t3, by rw [q3]; exact t4, by rw [if_pos e]; exact q2⟩
      · rw [if_neg e] at ht
        obtain ⟨t1, t2, t3, t4⟩ := I.tr l hl ht
        refine ⟨t1, by rw [f3 l e]; exact t2, t3, by rw [q3]; exact t4, ?_⟩
        rw [if_neg e]
        have := I.trf l hl ht
        exact this
    · dsimp only; rw [q3]; exact I.data
  · have hnm := hn x q1
    have files : ∀ i j, (if i = m then o.file else d.file i) = some j → j < o.fs.next := by
      intro i j h
      rw [q2]
      split at h
      · rcases q4 with ⟨_, e⟩ | ⟨_, e⟩
        · rw [e] at h; cases h
        · rw [e] at h; cases h; exact (open_ino d.fs x _ I.ok.names).2.1
      · exact Nat.lt_of_lt_of_le (I.files i j h) (open_next _ _ _)
    have okk : o.fs.Ok := by rw [q2]; exact open_ok I.ok _ _
    have hfd : ∀ l, own = some l → (w'.obj l).fd = true → ∃ i, (if l = m then o.file else d.file l) = some i := by
      intro l hl hf
      by_cases e : l = m
      · rw [e, f4] at hf
        rcases q4 with ⟨g, _⟩ | ⟨_, g⟩
        · rw [g] at hf; cases hf
        · exact ⟨_, by rw [if_pos e]; exact g⟩
      · rw [f3 l e] at hf; rw [if_neg e]; exact I.fd l hl hf
    by_cases hxn : x = nm
    · have hown := hnm.1 hxn
      subst hxn
      obtain ⟨g1, g2, g3, g4⟩ := open_this I.ok x (d.trunc m) I.uniq
      refine take_inv (x := []) fin okk files (by dsimp only; rw [q2]; exact g2) isLog hfd ?_ ?_ hx (hs _) ?_ ?_
      · intro l hl i hi
        dsimp only at hi ⊢
        rw [hown] at hl; cases hl
        rw [if_pos rfl] at hi
        rw [q2, g1]
        rcases q4 with ⟨_, e⟩ | ⟨_, e⟩
        · rw [e] at hi; cases hi
        · rw [e] at hi; exact hi
      · intro i hi j hj
        dsimp only at hj ⊢
        rw [if_neg (fun e => hi (by rw [hown, e]))] at hj
        rw [q2, g1]
        intro e
        have e := Option.some.inj e
        rcases open_snd d.fs x (d.trunc m) with ⟨k, _, _⟩ | ⟨_, k, _⟩
        · exact I.others i hi j hj (by rw [k, e])
        · have := I.files i j hj; omega
      · intro l hl ht
        rw [hown] at hl; cases hl
        dsimp only at ht
        rw [if_pos rfl, q3] at ht; cases ht
      · dsimp only
        rw [q2]
        obtain ⟨b, hb, hd⟩ := I.data
        by_cases ht : d.trunc m = true
        · obtain ⟨t1, t2, t3, t4⟩ := I.tr m hown ht
          rcases g4 with e | e
          · exact ⟨b, hb, by rw [e]; exact hd⟩
          · refine ⟨[], .inr ⟨rfl, t1, by rw [hown]; simp⟩, ?_⟩
            rw [e, hown]
            show [] = [] ++ sentTo m d.w.fx
            rw [t3]; rfl
        · exact ⟨b, hb, by rw [g3 (by simpa using ht)]; exact hd⟩
    · have hown : own ≠ some m := fun e => hxn (hnm.2 e)
      obtain ⟨g1, g2, g3, g4⟩ := open_other I.ok nm x (d.trunc m) hxn I.uniq
      have ne : ∀ l, own = some l → l ≠ m := fun l hl e => hown (by rw [hl, e])
      refine take_inv (x := []) fin okk files (by dsimp only; rw [q2]; exact g3) isLog hfd ?_ ?_ hx (hs _) ?_ ?_
      · intro l hl i hi
        dsimp only at hi ⊢
        rw [if_neg (ne l hl)] at hi
        rw [q2, g2]; exact I.mine l hl i hi
      · intro i hi j hj
        dsimp only at hj ⊢
        rw [q2, g2]
        by_cases e : i = m
        · rw [if_pos e] at hj
          rcases q4 with ⟨_, k⟩ | ⟨_, k⟩
          · rw [k] at hj; cases hj
          · rw [k] at hj; cases hj; exact g4
        · rw [if_neg e] at hj; exact I.others i hi j hj
      · intro l hl ht
        dsimp only at ht ⊢
        rw [if_neg (ne l hl)] at ht
        obtain ⟨t1, t2, t3, t4⟩ := I.tr l hl ht
        refine ⟨t1, by rw [f3 l (ne l hl)]; exact t2, t3, by rw [q2, g1]; exact t4, ?_⟩
        rw [if_neg (ne l hl)]; exact I.trf l hl ht
      · dsimp only; rw [q2, g1]; exact I.data

theorem disk_step {c : SConf} {pid : Int} {env : Env} {nm : List UInt8} {own : Option Nat} {base : List UInt8} {zero : Bool} {d d' : Disk} (e : DiskEv)
    (I : DiskInv nm own base zero d) (hs : d.step c pid env e = some d') (hq : quietOn nm d e = true)
    (hn : ∀ m ok tm x, e = .openLog m ok tm → c.logName pid tm m = some (some x) → (x = nm ↔ own = some m)) : DiskInv nm own base zero d' := by
  cases e with
  | step s =>
    simp only [Disk.step] at hs
    split at hs
    · cases hs; exact I
    · rename_i ho
      rw [Option.map_eq_some_iff] at hs
      obtain ⟨w', hw, rfl⟩ := hs
      obtain ⟨x, hx, hq⟩ := step_sent env s hw
      have lv := step_live I.fin.e.d s hw
      have stay : ∀ l, own = some l → (d.w.obj l).fd = false → (w'.obj l).fd = false := by
        intro l hl hf
        refine (log_closed_step I.fin l (I.isLog l hl).1 (I.isLog l hl).2 hf s hw ?_).2.2.1
        rintro rfl
        exact ho rfl
      have up : ∀ l, own = some l → (w'.obj l).fd = true → (d.w.obj l).fd = true := by
        intro l hl hf
        cases g : (d.w.obj l).fd with
        | true => rfl
        | false => rw [stay l hl g] at hf; cases hf
      refine take_inv (x := x) (I.fin.step s hw) I.ok I.files I.uniq ?_ (fun l hl hf => I.fd l hl (up l hl hf)) I.mine I.others hx ?_ ?_ I.data
      · intro l hl
        obtain ⟨h1, h2⟩ := I.isLog l hl
        refine ⟨by rw [lv.2.2 l h2]; exact h1, ?_⟩
        rcases lv.2.1 l h2 with z | z
        · exact z
        · rw [h1] at z; cases z.2
      · intro l hl y hy hf
        have hp := (hq l y hy).1
        cases g : (d.w.obj l).fd with
        | true => obtain ⟨i, hi⟩ := I.fd l hl g; rw [hf] at hi; cases hi
        | false => have := ((I.fin.e.d.inv.oi l).closed g).2; rw [this] at hp; cases hp
      · intro l hl ht
        obtain ⟨t1, t2, t3, t4⟩ := I.tr l hl ht
        exact ⟨t1, stay l hl t2, t3, t4, I.trf l hl ht⟩
  | openLog m ok tm =>
    simp only [Disk.step] at hs
    split at hs
    · cases hs; exact I
    · rename_i hk
      rw [Option.bind_eq_some_iff] at hs
      obtain ⟨o, ho, hs⟩ := hs
      rw [Option.map_eq_some_iff] at hs
      obtain ⟨w', hw, rfl⟩ := hs
      exact openLog_inv I (by simpa using hk) ho (fun x hx => hn m ok tm x rfl hx) hw
  | rename a b =>
    simp only [Disk.step, Option.some.injEq] at hs
    subst hs
    simp only [quietOn, decide_eq_true_eq] at hq
    have hr := rename_next d.fs a b
    have hi : (d.fs.rename a b).ino nm = d.fs.ino nm := by
      unfold LDir.rename
      split
      · rfl
      · split
        · rfl
        · dsimp only
          rw [if_neg (fun e => hq.2 e.symm), if_neg (fun e => hq.1 e.symm)]
    have hf : fileAt (d.fs.rename a b) nm = fileAt d.fs nm := by unfold fileAt; rw [hi, hr.2]
    refine ⟨I.fin, ⟨fun x i h => ?_, fun i h => ?_⟩, fun m j h => ?_, ?_, I.isLog, I.fd, fun l hl i h => ?_, fun m hm j h => ?_, fun l hl ht => ?_, I.trf, ?_⟩
    · dsimp only at h ⊢
      rw [hr.1]; exact rename_names d.fs a b (· < d.fs.next) I.ok.names x i h
    · dsimp only at h ⊢
      rw [hr.2]; exact I.ok.fresh i (by rw [hr.1] at h; exact h)
    · dsimp only; rw [hr.1]; exact I.files m j h
    · intro x i h1 h2
      dsimp only at h1 h2
      rw [hi] at h1
      unfold LDir.rename at h2
      split at h2
      · exact I.uniq x i h1 h2
      · split at h2
        · exact I.uniq x i h1 h2
        · rename_i k hk
          dsimp only at h2
          split at h2
          · cases h2; exact absurd (I.uniq a _ h1 hk) hq.1
          · split at h2
            · cases h2
            · exact I.uniq x i h1 h2
    · dsimp only; rw [hi]; exact I.mine l hl i h
    · dsimp only; rw [hi]; exact I.others m hm j h
    · dsimp only; rw [hf]; exact I.tr l hl ht
    · dsimp only; rw [hf]; exact I.data
  | remove a =>
    simp only [Disk.step, Option.some.injEq] at hs
    subst hs
    simp only [quietOn, decide_eq_true_eq] at hq
    have hi : (if nm = a then none else d.fs.ino nm) = d.fs.ino nm := if_neg (fun e => hq e.symm)
    have hf : fileAt { d.fs with ino := fun x => if x = a then none else d.fs.ino x } nm = fileAt d.fs nm := by unfold fileAt; dsimp only; rw [hi]
    have sub : ∀ x i, (if x = a then none else d.fs.ino x) = some i → d.fs.ino x = some i := by
      intro x i h
      split at h
      · cases h
      · exact h
    refine ⟨I.fin, ⟨fun x i h => I.ok.names x i (sub x i h), I.ok.fresh⟩, I.files, ?_, I.isLog, I.fd, fun l hl i h => ?_, fun m hm j h => ?_, fun l hl ht => ?_, I.trf, ?_⟩
    · intro x i h1 h2
      exact I.uniq x i (sub nm i h1) (sub x i h2)
    · dsimp only; rw [hi]; exact I.mine l hl i h
    · dsimp only; rw [hi]; exact I.others m hm j h
    · dsimp only; rw [hf]; exact I.tr l hl ht
    · dsimp only; rw [hf]; exact I.data
  | other i x =>
    simp only [Disk.step, Option.some.injEq] at hs
    subst hs
    simp only [quietOn, decide_eq_true_eq] at hq
    split
    · rename_i hlt
      have hf : fileAt (d.fs.append i x) nm = fileAt d.fs nm := by
        unfold fileAt LDir.append
        dsimp only
        split
        · rename_i k hk
          rw [if_neg (fun e => hq (by rw [hk, e]))]
        · rfl
      refine ⟨I.fin, ⟨I.ok.names, fun j h => ?_⟩, I.files, I.uniq, I.isLog, I.fd, I.mine, I.others, fun l hl ht => ?_, I.trf, ?_⟩
      · have h : d.fs.next ≤ j := h
        show (if j = i then _ else _) = []
        rw [if_neg (by omega)]; exact I.ok.fresh j h
      · dsimp only; rw [hf]; exact I.tr l hl ht
      · dsimp only; rw [hf]; exact I.data
    · exact I
  | hold i b =>
    simp only [Disk.step, Option.some.injEq] at hs
    subst hs
    exact ⟨I.fin, I.ok, I.files, I.uniq, I.isLog, I.fd, I.mine, I.others, I.tr, I.trf, I.data⟩

theorem disk_run {c : SConf} {pid : Int} {env : Env} {nm : List UInt8} {own : Option Nat} {base : List UInt8} {zero : Bool} (es : List DiskEv) : ∀ {d d' : Disk},
    DiskInv nm own base zero d → d.run c pid env es = some d' → leftAlone c pid env nm d es = true → onlyLog c pid nm own es → DiskInv nm own base zero d' := by
  induction es with
  | nil => intro d d' I hr _ _; simp only [Disk.run, Option.some.injEq] at hr; subst hr; exact I
  | cons e es ih =>
    intro d d' I hr hl hn
    simp only [Disk.run, Option.bind_eq_some_iff] at hr
    obtain ⟨d1, h1, h2⟩ := hr
    simp only [leftAlone, h1, Bool.and_eq_true] at hl
    refine ih (disk_step e I h1 hl.1 ?_) h2 hl.2 fun m ok tm x hm => hn m ok tm x (List.mem_cons_of_mem _ hm)
    rintro m ok tm x rfl
    exact hn m ok tm x (List.mem_cons_self ..)

/-- What the daemon does is a history of its objects. -/
theorem disk_world {c : SConf} {pid : Int} {env : Env} (es : List DiskEv) : ∀ {d d' : Disk}, d.run c pid env es = some d' →
    d.w.run env (daemonSteps c pid env d es) = some d'.w := by
  induction es with
  | nil => intro d d' hr; simp only [Disk.run, Option.some.injEq] at hr; subst hr; rfl
  | cons e es ih =>
    intro d d' hr
    simp only [Disk.run, Option.bind_eq_some_iff] at hr
    obtain ⟨d1, h1, h2⟩ := hr
    have ih := ih h2
    rw [daemonSteps, h1]
    cases e with
    | step s =>
      simp only [Disk.step] at h1
      dsimp only [daemonStep]
      split at h1
      · rename_i g; cases h1; rw [if_pos g]; exact ih
      · rename_i g
        rw [if_neg g]
        rw [Option.map_eq_some_iff] at h1
        obtain ⟨w', hw, rfl⟩ := h1
        rw [List.singleton_append, World.run, hw]; exact ih
    | openLog m ok tm =>
      simp only [Disk.step] at h1
      dsimp only [daemonStep]
      split at h1
      · rename_i g; cases h1; rw [if_pos g]; exact ih
      · rename_i g
        rw [if_neg g]
        rw [Option.bind_eq_some_iff] at h1
        obtain ⟨o, ho, h1⟩ := h1
        rw [Option.map_eq_some_iff] at h1
        obtain ⟨w', hw, rfl⟩ := h1
        rw [ho]
        dsimp only
        rw [List.singleton_append, World.run, hw]; exact ih
    | rename a b => simp only [Disk.step, Option.some.injEq] at h1; subst h1; exact ih
    | remove a => simp only [Disk.step, Option.some.injEq] at h1; subst h1; exact ih
    | other i x =>
      simp only [Disk.step, Option.some.injEq] at h1
      subst h1
      split at ih
      · rename_i g; rw [if_pos g]; exact ih
      · rename_i g; rw [if_neg g]; exact ih
    | hold i b => simp only [Disk.step, Option.some.injEq] at h1; subst h1; exact ih

/-- At the beginning. -/
theorem disk_boot (c : SConf) (fs : LDir) (held : Nat → Bool) (zero : Bool) (nm : List UInt8) (own : Option Nat) (hf : fs.Ok) (hu : oneName fs nm) (h0 : FInv c.world)
    (hl : ∀ l, own = some l → (c.world.obj l).kind = .logfile ∧ l ∈ c.world.live ∧ (c.world.obj l).fd = false) :
    DiskInv nm own (fileAt fs nm) zero (Disk.boot c fs held zero) := by
  have hfx : c.world.fx = [] := rfl
  have hw : ∀ l, sentTo l c.world.fx = [] := fun l => rfl
  refine ⟨h0, hf, fun m j h => (nomatch h), hu, fun l h => ⟨(hl l h).1, (hl l h).2.1⟩, fun l h hfd => ?_, fun l h i hi => (nomatch hi), fun m hm j hj => (nomatch hj),
    fun l h ht => ⟨ht, (hl l h).2.2, hw l, rfl⟩, fun l h ht => rfl, fileAt fs nm, .inl rfl, ?_⟩
  · rw [show (Disk.boot c fs held zero).w = c.world from rfl, (hl l h).2.2] at hfd; cases hfd
  · show fileAt fs nm = fileAt fs nm ++ wrote own c.world.fx
    cases own with
    | none => exact (List.append_nil _).symm
    | some l => show _ = _ ++ sentTo l c.world.fx; rw [hw l, List.append_nil]

end Conman
