import Verif.Model.Server
import Mathlib.Tactic.ByContra
import Mathlib.Tactic.Conv
/-
C40: client commands reach the server unchanged.
-/
namespace Verif

/-- The message for a list of arguments. -/
def argMsg : List (List Byte) → List Byte
  | [] => [0#8]
  | a :: as => a ++ 0#8 :: argMsg as

theorem argMsg_eq (args : List (List Byte)) : args.flatMap (· ++ [0#8]) ++ [0#8] = argMsg args := by
  induction args with
  | nil => rfl
  | cons a as ih => simp [argMsg, ← ih]

/-- Two NULs in a row are the end of the message. -/
theorem argMsg_double : ∀ (args : List (List Byte)), (∀ a ∈ args, a ≠ [] ∧ 0#8 ∉ a) → args ≠ [] →
    ∀ pre post, argMsg args = pre ++ 0#8 :: 0#8 :: post → post = [] := by
  intro args
  induction args with
  | nil => intro _ h; exact absurd rfl h
  | cons a as ih =>
    intro hall _ pre post he
    simp only [argMsg] at he
    obtain ⟨ha1, ha2⟩ := hall a (by simp)
    rw [List.append_eq_append_iff] at he
    rcases he with ⟨c, h1, h2⟩ | ⟨c, h1, h2⟩
    · cases c with
      | nil =>
        simp only [List.nil_append, List.cons.injEq, true_and] at h2
        cases as with
        | nil => simp [argMsg] at h2; exact h2
        | cons b bs =>
          obtain ⟨hb1, hb2⟩ := hall b (by simp)
          cases b with
          | nil => exact absurd rfl hb1
          | cons x b =>
            simp only [argMsg, List.cons_append, List.cons.injEq] at h2
            rw [h2.1] at hb2
            simp at hb2
      | cons x c =>
        simp only [List.cons_append, List.cons.injEq] at h2
        refine ih (fun b hb => hall b (List.mem_cons_of_mem _ hb)) ?_ c post h2.2
        rintro rfl
        have hl := congrArg List.length h2.2
        simp only [argMsg, List.length_cons, List.length_nil, List.length_append] at hl
        omega
    · cases c with
      | nil =>
        simp only [List.nil_append, List.cons.injEq, true_and] at h2
        cases as with
        | nil => simp [argMsg] at h2; exact h2
        | cons b bs =>
          obtain ⟨hb1, hb2⟩ := hall b (by simp)
          cases b with
          | nil => exact absurd rfl hb1
          | cons x b =>
            simp only [argMsg, List.cons_append, List.cons.injEq] at h2
            rw [← h2.1] at hb2
            simp at hb2
      | cons x c =>
        simp only [List.cons_append, List.cons.injEq] at h2
        rw [h1, ← h2.1] at ha2
        simp at ha2

theorem argMsg_more {args : List (List Byte)} (hall : ∀ a ∈ args, a ≠ [] ∧ 0#8 ∉ a) (hne : args ≠ []) (off : Nat)
    (h2 : 2 ≤ off) (hl : off < (argMsg args).length) :
    (argMsg args)[off - 2] ≠ 0#8 ∨ (argMsg args)[off - 1] ≠ 0#8 := by
  by_contra hc
  simp only [not_or, Decidable.not_not] at hc
  have e : argMsg args = (argMsg args).take (off - 2) ++ 0#8 :: 0#8 :: (argMsg args).drop off := by
    conv_lhs => rw [← List.take_append_drop (off - 2) (argMsg args)]
    rw [List.drop_eq_getElem_cons (by omega), hc.1, List.drop_eq_getElem_cons (by omega)]
    congr 2
    have e1 : off - 2 + 1 = off - 1 := by omega
    simp only [e1]
    rw [hc.2]
    congr 2
    omega
  have := argMsg_double args hall hne _ _ e
  rw [List.drop_eq_nil_iff] at this
  omega

theorem argMsg_end : ∀ (args : List (List Byte)), args ≠ [] → ∃ pre, argMsg args = pre ++ [0#8, 0#8] := by
  intro args
  induction args with
  | nil => intro h; exact absurd rfl h
  | cons a as ih =>
    intro _
    cases as with
    | nil => exact ⟨a, by simp [argMsg]⟩
    | cons b bs =>
      obtain ⟨pre, e⟩ := ih (by simp)
      exact ⟨a ++ 0#8 :: pre, by rw [argMsg, e]; simp⟩

def RecvEvent.Good : RecvEvent → Prop
  | .eintr => True
  | .data _ => True
  | _ => False

def RecvEvent.isData : RecvEvent → Bool
  | .data _ => true
  | _ => false

/-- The receive loop on a whole message. -/
theorem recvLoop_spec {args : List (List Byte)} (hall : ∀ a ∈ args, a ≠ [] ∧ 0#8 ∉ a) (hne : args ≠ [])
    (hL : (argMsg args).length < msgSize) : ∀ (evs : List RecvEvent), (∀ e ∈ evs, e.Good) →
    ∀ (buf : List Byte) (off : Nat), buf.length = msgSize → off < (argMsg args).length →
      buf.take off = (argMsg args).take off →
      (recvLoop evs ((argMsg args).drop off) buf off = .inl .waiting ∧
        (evs.filter RecvEvent.isData).length < (argMsg args).length - off) ∨
      ∃ rest, recvLoop evs ((argMsg args).drop off) buf off = .inr (argMsg args ++ rest, (argMsg args).length) := by
  have hmore : ∀ (buf : List Byte) (off : Nat), buf.length = msgSize → off < (argMsg args).length →
      buf.take off = (argMsg args).take off → recvMore buf off = true := by
    intro buf off hb ho ht
    unfold recvMore
    simp only [Bool.and_eq_true, Bool.or_eq_true, decide_eq_true_eq, bne_iff_ne, ne_eq]
    refine ⟨by omega, ?_⟩
    by_cases h2 : off < 2
    · exact Or.inl (Or.inl h2)
    · have hh := argMsg_more hall hne off (by omega) ho
      have hget : ∀ i, i < off → buf.getD i 0#8 = (argMsg args).getD i 0#8 := by
        intro i hi
        have := congrArg (fun l => l.getD i 0#8) ht
        simp only [List.getD_eq_getElem?_getD, List.getElem?_take, if_pos hi] at this
        simpa [List.getD_eq_getElem?_getD] using this
      rw [hget _ (by omega), hget _ (by omega)]
      have g1 : (argMsg args).getD (off - 2) 0#8 = (argMsg args)[off - 2] := by
        rw [List.getD_eq_getElem?_getD, List.getElem?_eq_getElem (by omega)]; rfl
      have g2 : (argMsg args).getD (off - 1) 0#8 = (argMsg args)[off - 1] := by
        rw [List.getD_eq_getElem?_getD, List.getElem?_eq_getElem (by omega)]; rfl
      rw [g1, g2]
      rcases hh with h | h
      · exact Or.inl (Or.inr h)
      · exact Or.inr h
  intro evs
  induction evs with
  | nil =>
    intro _ buf off hb ho ht
    exact Or.inl ⟨rfl, by simp only [List.filter_nil, List.length_nil]; omega⟩
  | cons e evs ih =>
    intro hg buf off hb ho ht
    have hg' : ∀ e ∈ evs, e.Good := fun e he => hg e (List.mem_cons_of_mem _ he)
    cases e with
    | eof => exact absurd (hg .eof (by simp)) (by simp [RecvEvent.Good])
    | error => exact absurd (hg .error (by simp)) (by simp [RecvEvent.Good])
    | eintr =>
      simp only [recvLoop, hmore buf off hb ho ht, if_true]
      simpa [RecvEvent.isData] using ih hg' buf off hb ho ht
    | data n =>
      simp only [recvLoop]
      generalize hchunk : List.take (min (n + 1) (msgSize - off)) (List.drop off (argMsg args)) = chunk
      have hclen : chunk.length = min (min (n + 1) (msgSize - off)) ((argMsg args).length - off) := by
        rw [← hchunk]; simp
      have hpos : 0 < chunk.length := by omega
      have hcne : chunk ≠ [] := by rintro rfl; simp at hpos
      rw [if_neg hcne]
      have hdrop : ((argMsg args).drop off).drop chunk.length = (argMsg args).drop (off + chunk.length) := by
        rw [List.drop_drop]
      have hchunk2 : chunk = ((argMsg args).drop off).take chunk.length := by
        rw [hclen, ← hchunk, List.take_eq_take_iff]
        simp only [List.length_drop]
        omega
      have hb' : (buf.take off ++ chunk ++ buf.drop (off + chunk.length)).length = msgSize := by
        simp only [List.length_append, List.length_take, List.length_drop]
        omega
      have ht' : (buf.take off ++ chunk ++ buf.drop (off + chunk.length)).take (off + chunk.length) =
          (argMsg args).take (off + chunk.length) := by
        rw [List.take_left' (by simp only [List.length_append, List.length_take]; omega)]
        rw [ht, List.take_add, ← hchunk2]
      by_cases hfin : off + chunk.length < (argMsg args).length
      · rw [hmore _ _ hb' hfin ht', if_pos rfl, hdrop]
        rcases ih hg' _ _ hb' hfin ht' with ⟨h1, h2⟩ | h
        · refine Or.inl ⟨h1, ?_⟩
          rw [List.filter_cons_of_pos (by rfl), List.length_cons]
          omega
        · exact Or.inr h
      · have hoff : off + chunk.length = (argMsg args).length := by omega
        rw [hoff] at ht' ⊢
        rw [List.take_length] at ht'
        refine Or.inr ⟨(buf.take off ++ chunk ++ buf.drop (argMsg args).length).drop (argMsg args).length, ?_⟩
        have hbuf : buf.take off ++ chunk ++ buf.drop (argMsg args).length = argMsg args ++
            (buf.take off ++ chunk ++ buf.drop (argMsg args).length).drop (argMsg args).length := by
          have := List.take_append_drop (argMsg args).length (buf.take off ++ chunk ++ buf.drop (argMsg args).length)
          rw [ht'] at this
          exact this.symm
        have hm : recvMore (buf.take off ++ chunk ++ buf.drop (argMsg args).length) (argMsg args).length = false := by
          rw [hbuf]
          obtain ⟨pre, e⟩ := argMsg_end args hne
          have hlen : (argMsg args).length = pre.length + 2 := by rw [e]; simp
          unfold recvMore
          rw [hlen, e]
          simp [List.getD_eq_getElem?_getD, List.getElem?_append]
        rw [hm]
        simp only [Bool.false_eq_true, if_false]
        rw [← hbuf]

theorem cstr_append {a rest : List Byte} (h : 0#8 ∉ a) : cstr (a ++ 0#8 :: rest) = a := by
  unfold cstr
  induction a with
  | nil => simp
  | cons x a ih =>
    simp only [List.mem_cons, not_or] at h
    have : (x != 0) = true := by simpa [bne_iff_ne] using Ne.symm h.1
    rw [List.cons_append, List.takeWhile_cons, this, if_pos rfl, ih h.2]

/-- The argument loop. -/
theorem parseArgv_spec (rest : List Byte) : ∀ (as : List (List Byte)), (∀ a ∈ as, a ≠ [] ∧ 0#8 ∉ a) →
    ∀ (w : List Byte), 0#8 ∉ w → ∀ (argv : List (List Byte)), argv.length + as.length ≤ argvSize →
    (parseArgv (w.length + 1 + (argMsg as).length) (w ++ 0#8 :: (argMsg as ++ rest)) argv).map cstr =
      argv.map cstr ++ as := by
  intro as
  induction as with
  | nil =>
    intro _ w
    induction w with
    | nil =>
      intro _ argv hl
      simp only [argMsg, List.length_nil, List.length_cons, List.nil_append, List.cons_append]
      unfold parseArgv
      split <;> simp
    | cons c w ihw =>
      intro hw argv hl
      simp only [List.mem_cons, not_or] at hw
      rw [show (c :: w).length + 1 + (argMsg []).length = (w.length + 1 + (argMsg []).length) + 1 by simp; omega]
      rw [List.cons_append]
      unfold parseArgv
      split
      · rw [if_pos (Ne.symm hw.1)]
        exact ihw hw.2 argv hl
      · simp
  | cons a as ih =>
    intro hall w
    obtain ⟨ha1, ha2⟩ := hall a (by simp)
    induction w with
    | nil =>
      intro _ argv hl
      simp only [List.length_cons] at hl
      have hargv : argv.length < argvSize := by omega
      cases a with
      | nil => exact absurd rfl ha1
      | cons d a =>
        have hd : d ≠ 0#8 := by rintro rfl; simp at ha2
        have ha2' : 0#8 ∉ a := fun h => ha2 (List.mem_cons_of_mem _ h)
        have e := ih (fun b hb => hall b (List.mem_cons_of_mem _ hb)) a ha2'
          (argv ++ [d :: (a ++ 0#8 :: (argMsg as ++ rest))]) (by simp; omega)
        rw [List.nil_append, show ([] : List Byte).length + 1 + (argMsg ((d :: a) :: as)).length =
          (a.length + 1 + (argMsg as).length + 1) + 1 by simp [argMsg]; omega]
        unfold parseArgv
        rw [if_pos hargv]
        simp only [ne_eq, not_true_eq_false, if_false, argMsg, List.cons_append]
        rw [if_neg hd]
        rw [show a.length + 1 + (argMsg as).length + 1 - 1 = a.length + 1 + (argMsg as).length by omega]
        rw [show a ++ 0#8 :: argMsg as ++ rest = a ++ 0#8 :: (argMsg as ++ rest) by simp, e]
        rw [List.map_append, List.map_cons, List.map_nil, ← List.cons_append, cstr_append ha2]
        simp
    | cons c w ihw =>
      intro hw argv hl
      simp only [List.mem_cons, not_or] at hw
      rw [show (c :: w).length + 1 + (argMsg (a :: as)).length = (w.length + 1 + (argMsg (a :: as)).length) + 1 by simp; omega]
      rw [List.cons_append]
      simp only [List.length_cons] at hl
      unfold parseArgv
      rw [if_pos (show argv.length < argvSize by omega), if_pos (Ne.symm hw.1)]
      exact ihw hw.2 argv (by simpa using hl)

/-- C40, first part.  For at most 32 non-empty arguments (C strings) whose message is shorter than 4096 bytes: whatever
the server's buffer contained and however the stream is split into reads, interrupted or not, the server executes
exactly the arguments of the client or is still waiting; it executes them at the latest after as many reads as the
message has bytes.
Missing from the full claim: empty arguments, more than 32 arguments, longer messages, errors of recv (see the
violations below). -/
theorem C40_same_arguments_partial (args : List (List Byte)) (msg junk : List Byte) (evs : List RecvEvent)
    (hmsg : clientMessage args = some msg) (hne : args ≠ []) (hargs : ∀ a ∈ args, a ≠ [] ∧ 0#8 ∉ a)
    (hcount : args.length ≤ 32) (hlen : msg.length < 4096) (hjunk : junk.length = 4096)
    (hev : ∀ e ∈ evs, e = .eintr ∨ ∃ n, e = .data n) :
    (handleClient evs msg junk = .exec args ∨ handleClient evs msg junk = .waiting) ∧
      (msg.length ≤ (evs.filter RecvEvent.isData).length → handleClient evs msg junk = .exec args) := by
  unfold clientMessage at hmsg
  simp only [argMsg_eq] at hmsg
  split at hmsg
  · cases hmsg
  simp only [Option.some.injEq] at hmsg
  subst hmsg
  have hgood : ∀ e ∈ evs, e.Good := by
    intro e he
    rcases hev e he with rfl | ⟨n, rfl⟩ <;> trivial
  have hp : 0 < (argMsg args).length := by
    obtain ⟨pre, e⟩ := argMsg_end args hne
    rw [e]; simp
  have hspec := recvLoop_spec hargs hne (by simpa [msgSize] using hlen) evs hgood junk 0 hjunk hp (by simp)
  rw [List.drop_zero] at hspec
  rcases hspec with ⟨h1, h2⟩ | ⟨rest, h1⟩
  · have e : handleClient evs (argMsg args) junk = .waiting := by unfold handleClient; rw [h1]
    exact ⟨Or.inr e, fun h => by omega⟩
  · have e : handleClient evs (argMsg args) junk = .exec args := by
      unfold handleClient
      rw [h1]
      simp only
      rw [if_neg (show ¬ (argMsg args).length = msgSize by simp only [msgSize]; omega)]
      cases args with
      | nil => exact absurd rfl hne
      | cons a as =>
        have ha := (hargs a (by simp)).2
        have := parseArgv_spec rest as (fun b hb => hargs b (List.mem_cons_of_mem _ hb)) a ha
          [a ++ 0#8 :: (argMsg as ++ rest)] (by simp [argvSize] at hcount ⊢; omega)
        simp only [argMsg]
        rw [show (a ++ 0#8 :: argMsg as).length = a.length + 1 + (argMsg as).length by simp; omega]
        rw [show a ++ 0#8 :: argMsg as ++ rest = a ++ 0#8 :: (argMsg as ++ rest) by simp, this]
        simp [cstr_append ha]
    exact ⟨Or.inl e, fun _ => e⟩

/-- Example: `patch -p 42`. -/
def exArgs : List (List Byte) := [[112, 97, 116, 99, 104], [45, 112], [52, 50]]

example : ∃ msg, clientMessage exArgs = some msg ∧ msg.length < 4096 ∧ exArgs ≠ [] ∧ exArgs.length ≤ 32 ∧
    ∀ a ∈ exArgs, a ≠ [] ∧ 0#8 ∉ a := ⟨_, rfl, by decide, by decide, by decide, by decide⟩

/-- Violation: an empty argument ends the list of arguments: `unpatch "" -p 42` arrives as `unpatch`. -/
theorem C40_violated_empty_argument : ∃ (args : List (List Byte)) (msg : List Byte), clientMessage args = some msg ∧
    args.length = 3 ∧ ∀ junk : List Byte, junk.length = 4096 →
      handleClient [.data 4095] msg junk = .exec (args.take 1) := by
  refine ⟨[[117], [], [120]], _, rfl, rfl, ?_⟩
  intro junk hj
  simp [handleClient, recvLoop, recvMore, parseArgv, msgSize, argvSize, cstr]

/-- Violation: of 33 arguments the last one is lost. -/
theorem C40_violated_many_arguments : ∃ (args : List (List Byte)) (msg : List Byte), clientMessage args = some msg ∧
    args.length = 33 ∧ (∀ a ∈ args, a ≠ [] ∧ 0#8 ∉ a) ∧ ∀ junk : List Byte, junk.length = 4096 →
      handleClient [.data 4095] msg junk = .exec (args.take 32) := by
  refine ⟨List.replicate 33 [120], _, rfl, rfl, by decide, ?_⟩
  intro junk hj
  simp [handleClient, recvLoop, recvMore, parseArgv, msgSize, argvSize, cstr, List.replicate]

theorem handleClient_long (junk msg : List Byte) (hm : 4096 ≤ msg.length) (evs : List RecvEvent) :
    handleClient (.data 4095 :: evs) msg junk = .closed := by
  have hs : msgSize = 4096 := rfl
  have hmore : ∀ buf, recvMore buf msgSize = false := by intro buf; simp [recvMore]
  have hl : (msg.take (min (4095 + 1) (msgSize - 0))).length = msgSize := by
    rw [List.length_take]; omega
  simp only [handleClient, recvLoop]
  generalize List.take (min (4095 + 1) (msgSize - 0)) msg = chunk at hl
  have hne : chunk ≠ [] := by rintro rfl; simp [hs] at hl
  rw [if_neg hne, hl, Nat.zero_add, hmore]
  simp

/-- Violation: a message of 4096 bytes or more, which the client sends, is dropped. -/
theorem C40_violated_long_message (n : Nat) (h1 : 4094 ≤ n) (h2 : n ≤ 16000) (junk : List Byte) (evs : List RecvEvent) :
    ∃ msg, clientMessage [List.replicate n 120#8] = some msg ∧ handleClient (.data 4095 :: evs) msg junk = .closed := by
  refine ⟨List.replicate n 120#8 ++ [0#8] ++ [0#8], ?_, handleClient_long junk _ ?_ evs⟩
  · unfold clientMessage
    simp only [List.flatMap_cons, List.flatMap_nil, List.append_nil, List.length_append, List.length_replicate,
      List.length_cons, List.length_nil]
    rw [if_neg (by omega)]
  · simp only [List.length_append, List.length_replicate, List.length_cons, List.length_nil]
    omega

/-- Violation: when the first recv fails (for example because the client has reset the connection) the server executes
what happens to be in its buffer, which may be the command of an earlier client. -/
theorem C40_violated_recv_error (evs : List RecvEvent) (msg junk : List Byte) :
    handleClient (.error :: evs) msg junk = .exec [cstr junk] := by
  simp [handleClient, recvLoop, parseArgv, msgSize]

/-- The buffer still holds an earlier "stop". -/
example : handleClient [.error] [] [115#8, 116#8, 111#8, 112#8, 0#8, 0#8] = .exec [[115#8, 116#8, 111#8, 112#8]] := by
  rw [C40_violated_recv_error]
  rfl

end Verif
