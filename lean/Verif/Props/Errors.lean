import Verif.Model.Errors
/-!
# C166, C167: what errors say, here and in other processes
-/
namespace Bolt
namespace Spec

/-- what an error about a pool is to say: which pool, and what happened -/
def about (pool what : PyStr) : PyStr := pool ++ py ": " ++ what

/-- the classes of errors about a pool -/
def ofPool (c : ErrCls) : Prop := c = .pool ∨ c = .emptyPool ∨ c = .closedPool

/-- the classes that put a prefix before what they are given -/
def prefixed (c : ErrCls) : Prop := c = .server ∨ c = .client ∨ c = .noProcessor

/-- the classes that are a `ValueError` too -/
def valueErr (c : ErrCls) : Prop := c = .location ∨ c = .socketValue

/-- the prefix -/
def prefixOf (c : ErrCls) : PyStr := if c = .client then py "ClientError: " else py "ServerError: "

/-- the statuses of the protocol, by number -/
def statusNames : List (Int × PyStr) :=
  [(0x00, py "SUCCESS"), (0x01, py "ERROR"), (0x02, py "SERVER_EXCEPTION"), (0x03, py "UNKNOWN"),
    (0x04, py "SERVER_THREADPOOL_BUSY"), (0x05, py "ERROR_COMM"), (0x06, py "NO_PROCESSOR"), (0x07, py "TIMEOUT"),
    (0x08, py "CLIENT_SEND_ERROR"), (0x09, py "CODEC_EXCEPTION"), (0x10, py "CONNECTION_CLOSED"),
    (0x11, py "SERVER_SERIAL_EXCEPTION"), (0x12, py "SERVER_DESERIAL_EXCEPTION")]

end Spec
open Spec

theorem reprChar_length (q c : Nat) : 1 ≤ (reprChar q c).length := by
  unfold reprChar
  repeat' split
  all_goals first | (simp; done) | decide

theorem reprStr_length (s : PyStr) : s.length + 2 ≤ (reprStr s).length := by
  have h : ∀ (q : Nat) (s : PyStr), s.length ≤ (s.flatMap (reprChar q)).length := by
    intro q s
    induction s with
    | nil => simp
    | cons c s ih => 
      have := reprChar_length q c
      rw [List.flatMap_cons, List.length_append, List.length_cons]
      omega
  unfold reprStr
  have := h (if 39 ∈ s ∧ 34 ∉ s then 34 else 39) s
  simp only [List.length_append, List.length_cons, List.length_nil]
  omega

theorem ErrCls.make_pool {c : ErrCls} (hc : ofPool c) (p m : ErrVal) :
    c.make [p, m] = some { cls := c, args := [.none, some (.str (about p.text m.text))], pool := some p } := by
  rcases hc with rfl | rfl | rfl <;> rfl

/-! ## C166 -/

/-- C166 as listed: the text of an error about a pool is the pool and what happened. -/
def C166_full : Prop :=
  ∀ (c : ErrCls) (p m : ErrVal) (e : ErrObj), ofPool c → c.make [p, m] = some e → e.text = about p.text m.text

/-- What the text is instead: that of a pair of the error and the intended text. -/
theorem C166_pool_partial (c : ErrCls) (p m : ErrVal) (e : ErrObj) (hc : ofPool c) (h : c.make [p, m] = some e) :
    e.text = py "(" ++ c.name ++ py "(...), " ++ reprStr (about p.text m.text) ++ py ")" ∧
      e.args = [.none, some (.str (about p.text m.text))] ∧ e.pool = some p := by
  rw [ErrCls.make_pool hc] at h
  cases h
  have h1 : py "(...), " = py "(...)" ++ py ", " := by decide
  exact ⟨by simp [ErrObj.text, ErrObj.argRepr, ErrVal.repr, h1, List.append_assoc], rfl, rfl⟩

/-- No error about a pool has the intended text. -/
theorem C166_never (c : ErrCls) (p m : ErrVal) (e : ErrObj) (hc : ofPool c) (h : c.make [p, m] = some e) :
    e.text ≠ about p.text m.text := by
  intro hh
  have h1 := congrArg List.length hh
  rw [(C166_pool_partial c p m e hc h).1] at h1
  have := reprStr_length (about p.text m.text)
  simp only [List.length_append] at h1
  omega

theorem C166_violated : ¬ C166_full := by
  intro h
  exact C166_never .closedPool (.str []) (.str (py "Pool is closed.")) _ (.inr (.inr rfl)) rfl
    (h .closedPool (.str []) (.str (py "Pool is closed.")) _ (.inr (.inr rfl)) rfl)

/-- The texts of the other errors: what they were made with, after the prefix of the class if it has one. -/
theorem C166_text (c : ErrCls) (m : ErrVal) (hc : ¬ ofPool c) :
    ∃ e, c.make [m] = some e ∧ (prefixed c → e.text = prefixOf c ++ m.text) ∧ (¬ prefixed c → e.text = m.text) := by
  cases c <;> simp [ofPool] at hc <;>
    refine ⟨_, rfl, fun h => ?_, fun h => ?_⟩ <;>
    first
      | rfl
      | (simp [prefixed] at h)

/-- The text of the error for a status tells the status: number and name are in it, and different statuses have different
texts. -/
theorem C166_status (st : RespStatus) :
    ∃ e, fromStatuscode st = some e ∧ e.cls = .server ∧
      (∃ n, (st.code, n) ∈ statusNames ∧
        e.text = py "ServerError: ServerError: RESPSTATUS=" ++ intStr st.code ++ py ", " ++ n) ∧
      ∀ st' e', fromStatuscode st' = some e' → e'.text = e.text → st' = st := by
  refine ⟨_, rfl, rfl, ?_, ?_⟩
  · refine ⟨st.name, by cases st <;> decide, ?_⟩
    have h : py "ServerError: ServerError: RESPSTATUS=" = py "ServerError: " ++ py "ServerError: RESPSTATUS=" := by decide
    rw [h]
    simp [ErrObj.text, ErrVal.text, List.append_assoc]
  · intro st' e' h ht
    cases h
    revert ht
    cases st <;> cases st' <;> decide

/-! ## C167 -/

/-- C167 as listed: the copy of an error in another process is of the same class and has the same text. -/
def C167_full : Prop :=
  ∀ (c : ErrCls) (args : List ErrVal) (e : ErrObj), c.make args = some e →
    ∃ e', e.copy = some e' ∧ e'.cls = e.cls ∧ e'.text = e.text

theorem make_cases (c : ErrCls) (args : List ErrVal) (e : ErrObj) (h : c.make args = some e) :
    (prefixed c ∧ ∃ m, args = [m] ∧ e = { cls := c, args := [some (.str (prefixOf c ++ m.text))] }) ∨
    (ofPool c ∧ ∃ p m, args = [p, m] ∧
      e = { cls := c, args := [.none, some (.str (about p.text m.text))], pool := some p }) ∨
    (¬ prefixed c ∧ ¬ ofPool c ∧ e = { cls := c, args := args.map some }) := by
  cases c <;> simp only [ErrCls.make] at h
  case server | noProcessor | client =>
    left
    refine ⟨by simp [prefixed], ?_⟩
    match args, h with
    | [m], h => cases h; exact ⟨m, rfl, rfl⟩
  case pool | emptyPool | closedPool =>
    right; left
    refine ⟨by simp [ofPool], ?_⟩
    match args, h with
    | [p, m], h => cases h; exact ⟨p, m, rfl, rfl⟩
  all_goals
    right; right
    cases h
    exact ⟨by simp [prefixed], by simp [ofPool], rfl⟩

/-- Every error can be copied, and the copy is of its class. The copy of a `PyboltError` without a constructor of its own is
the same; one with a prefix gets the prefix once more; those of mysockpool say `None` twice. -/
theorem C167_copy_partial (c : ErrCls) (args : List ErrVal) (e : ErrObj) (h : c.make args = some e) :
    ∃ e', e.copy = some e' ∧ e'.cls = c ∧
      (prefixed c → e'.text = prefixOf c ++ e.text) ∧
      (ofPool c → e'.text = py "(" ++ c.name ++ py "(...), 'None: None')" ∧ e'.pool = some .none) ∧
      (valueErr c → e'.text = py "(None, None)") ∧
      (¬ prefixed c → ¬ ofPool c → ¬ valueErr c → e' = e) := by
  rcases make_cases c args e h with ⟨hc, m, rfl, rfl⟩ | ⟨hc, p, m, rfl, rfl⟩ | ⟨h1, h2, rfl⟩
  · rcases hc with rfl | rfl | rfl <;>
      exact ⟨_, rfl, rfl, fun _ => rfl, fun h => by simp [ofPool] at h, fun h => by simp [valueErr] at h,
        fun h => absurd (by simp [prefixed]) h⟩
  · rcases hc with rfl | rfl | rfl <;>
      exact ⟨_, rfl, rfl, fun h => by simp [prefixed] at h, fun _ => ⟨by decide, rfl⟩, fun h => by simp [valueErr] at h,
        fun _ h => absurd (by simp [ofPool]) h⟩
  · by_cases h3 : valueErr c
    · rcases h3 with rfl | rfl <;>
        exact ⟨_, rfl, rfl, fun h => absurd h h1, fun h => absurd h h2, fun _ => (by clear h; dsimp only; decide),
          fun _ _ h => absurd (by simp [valueErr]) h⟩
    · have hm : (args.map some).filterMap id = args := by
        induction args with
        | nil => rfl
        | cons a as ih => simp
      refine ⟨{ cls := c, args := args.map some }, ?_, rfl, fun h => absurd h h1, fun h => absurd h h2,
        fun h => absurd h h3, fun _ _ _ => rfl⟩
      cases c <;> simp [prefixed, ofPool, valueErr] at h1 h2 h3 <;> simp only [ErrObj.copy, hm] <;> rfl

/-- Exactly which errors keep their text: those of the classes without a constructor of their own, and the errors of mysockpool
that said nothing but `None` before. -/
theorem C167_exact (c : ErrCls) (args : List ErrVal) (e e' : ErrObj) (h : c.make args = some e) (hc : e.copy = some e') :
    e'.text = e.text ↔
      (¬ prefixed c ∧ ¬ ofPool c ∧ ¬ valueErr c) ∨
      (ofPool c ∧ e.text = py "(" ++ c.name ++ py "(...), 'None: None')") ∨
      (valueErr c ∧ e.text = py "(None, None)") := by
  obtain ⟨e'', h0, h1, h2, h3, h4, h5⟩ := C167_copy_partial c args e h
  rw [hc] at h0
  cases h0
  by_cases a : prefixed c
  · have n1 : ¬ ofPool c := by rcases a with rfl | rfl | rfl <;> simp [ofPool]
    have n2 : ¬ valueErr c := by rcases a with rfl | rfl | rfl <;> simp [valueErr]
    have : e'.text ≠ e.text := by
      rw [h2 a]
      intro hh
      have hl := congrArg List.length hh
      have : 0 < (prefixOf c).length := by rcases a with rfl | rfl | rfl <;> decide
      rw [List.length_append] at hl
      omega
    simp [this, a, n1, n2]
  · by_cases b : ofPool c
    · have n2 : ¬ valueErr c := by rcases b with rfl | rfl | rfl <;> simp [valueErr]
      rw [(h3 b).1]
      simp only [a, b, n2, not_true, false_and, and_false, true_and, or_false, false_or]
      exact eq_comm
    · by_cases d : valueErr c
      · rw [h4 d]
        simp only [b, d, not_true, false_and, and_false, true_and, false_or]
        exact eq_comm
      · simp [h5 a b d, a, b, d]

theorem C167_violated : ¬ C167_full := by
  intro h
  obtain ⟨e', h1, _, h2⟩ := h .server [.str (py "RequestId not match")] _ rfl
  cases h1
  revert h2
  decide

/-- `n` copies, one after the other -/
def copies : Nat → ErrObj → Option ErrObj
  | 0, e => some e
  | n + 1, e => e.copy.bind (copies n)

/-- An error with a prefix gets one more with every copy: after `n` processes it has `n` more. -/
theorem C167_grows (c : ErrCls) (hc : prefixed c) (args : List ErrVal) (e : ErrObj) (h : c.make args = some e) (n : Nat) :
    ∃ e', copies n e = some e' ∧ e'.text = (List.replicate n (prefixOf c)).flatten ++ e.text := by
  induction n generalizing args e with
  | zero => exact ⟨e, rfl, rfl⟩
  | succ n ih =>
    obtain ⟨e1, h1, _, h2, _⟩ := C167_copy_partial c args e h
    have hm : ∃ args', c.make args' = some e1 := by
      rcases make_cases c args e h with ⟨_, m, rfl, rfl⟩ | ⟨hp, _⟩ | ⟨hp, _⟩
      · refine ⟨[.str (prefixOf c ++ m.text)], ?_⟩
        rcases hc with rfl | rfl | rfl <;> exact h1
      · rcases hc with rfl | rfl | rfl <;> simp [ofPool] at hp
      · exact absurd hc hp
    obtain ⟨args', hm⟩ := hm
    obtain ⟨e2, h3, h4⟩ := ih args' e1 hm
    refine ⟨e2, by simp only [copies, h1, Option.bind_some, h3], ?_⟩
    rw [h4, h2 hc, ← List.append_assoc]
    congr 1
    have key : ∀ (k : Nat) (x : PyStr), (List.replicate k x).flatten ++ x = x ++ (List.replicate k x).flatten := by
      intro k x
      induction k with
      | zero => simp
      | succ k ihk => simp only [List.replicate_succ, List.flatten_cons, List.append_assoc, ihk]
    rw [key, List.replicate_succ, List.flatten_cons]

/-! ## Concrete cases -/

/-- a pool as it appears in the texts (connection_pool.py:70-71) -/
def samplePool : ErrVal :=
  .obj (py "ConnectionPool(SocketPoolKey(host='h', port=1))") (py "<mysockpool.connection_pool.ConnectionPool object>")

example : ∃ e, ErrCls.closedPool.make [samplePool, .str (py "Pool is closed.")] = some e ∧
    e.text = py "(ClosedPoolError(...), \"ConnectionPool(SocketPoolKey(host='h', port=1)): Pool is closed.\")" ∧
    (e.copy.map ErrObj.text) = some (py "(ClosedPoolError(...), 'None: None')") :=
  ⟨_, rfl, by decide +kernel, by decide +kernel⟩

example : (fromStatuscode .timeout).map ErrObj.text = some (py "ServerError: ServerError: RESPSTATUS=7, TIMEOUT") ∧
    ((fromStatuscode .timeout).bind (copies 2)).map ErrObj.text =
      some (py "ServerError: ServerError: ServerError: ServerError: RESPSTATUS=7, TIMEOUT") :=
  ⟨by decide +kernel, by decide +kernel⟩

example : ∃ e, ErrCls.location.make [.str (py "No pool_key specified.")] = some e ∧
    e.text = py "No pool_key specified." ∧ e.copy.map ErrObj.text = some (py "(None, None)") :=
  ⟨_, rfl, rfl, by decide⟩

example : ∃ e, ErrCls.decode.make [.str (py "x")] = some e ∧ e.copy = some e := ⟨_, rfl, rfl⟩

/-! ## The quoted text of errors of pools -/

/-- the value of a hexadecimal digit -/
def Spec.hexVal (d : Nat) : Nat := if d < 58 then d - 48 else d - 87

/-- what a string literal after its opening quote `q` stands for (Python's rules for string literals, those that `repr` uses) -/
def Spec.literal (q : Nat) : PyStr → Option PyStr
  | [] => none
  | c :: rest =>
    if c = q then (if rest = [] then some [] else none)
    else if c = 92 then
      match rest with
      | 120 :: a :: b :: rest => (literal q rest).map ((16 * hexVal a + hexVal b) :: ·)
      | 110 :: rest => (literal q rest).map (10 :: ·)
      | 114 :: rest => (literal q rest).map (13 :: ·)
      | 116 :: rest => (literal q rest).map (9 :: ·)
      | x :: rest => (literal q rest).map (x :: ·)
      | [] => none
    else (literal q rest).map (c :: ·)

theorem hexVal_digit (d : Nat) (h : d < 16) : hexVal (hexDigit d) = d := by
  unfold hexVal hexDigit
  split <;> split <;> omega

theorem literal_char (q c : Nat) (hq : q = 34 ∨ q = 39) (rest : PyStr) :
    literal q (reprChar q c ++ rest) = (literal q rest).map (c :: ·) := by
  have h92 : (92 : Nat) ≠ q := by omega
  unfold reprChar
  split
  · next h =>
    show literal q (92 :: c :: rest) = _
    rw [literal, if_neg h92, if_pos rfl]
    all_goals (intros; omega)
  · next h1 =>
    split
    · next h => subst h; show literal q (92 :: 110 :: rest) = _; rw [literal, if_neg h92, if_pos rfl]
    · split
      · next h => subst h; show literal q (92 :: 114 :: rest) = _; rw [literal, if_neg h92, if_pos rfl]
      · split
        · next h => subst h; show literal q (92 :: 116 :: rest) = _; rw [literal, if_neg h92, if_pos rfl]
        · split
          · next h =>
            show literal q (92 :: 120 :: hexDigit (c / 16) :: hexDigit (c % 16) :: rest) = _
            rw [literal, if_neg h92, if_pos rfl]
            rw [hexVal_digit _ (by omega), hexVal_digit _ (by omega), show 16 * (c / 16) + c % 16 = c by omega]
          · show literal q (c :: rest) = _
            rw [literal.eq_def]
            dsimp only
            rw [if_neg (fun e => h1 (.inl e)), if_neg (fun e => h1 (.inr e))]

/-- C166, the quoted text in the errors of pools: it is the literal of the text about the pool, so nothing of that is lost. -/
theorem C166_literal (s : PyStr) : ∃ q rest, (q = 34 ∨ q = 39) ∧ reprStr s = q :: rest ∧ literal q rest = some s := by
  unfold reprStr
  have hq : (if 39 ∈ s ∧ 34 ∉ s then 34 else 39) = 34 ∨ (if 39 ∈ s ∧ 34 ∉ s then 34 else 39) = 39 := by
    split
    · exact .inl rfl
    · exact .inr rfl
  generalize (if 39 ∈ s ∧ 34 ∉ s then 34 else 39) = q at hq
  refine ⟨q, s.flatMap (reprChar q) ++ [q], hq, rfl, ?_⟩
  induction s with
  | nil =>
    show literal q [q] = _
    rw [literal, if_pos rfl, if_pos rfl]
  | cons c s ih =>
    rw [List.flatMap_cons, List.append_assoc, literal_char q c hq, ih]
    rfl

/-- different texts about pools have different literals -/
theorem C166_literal_inj (s s' : PyStr) (h : reprStr s = reprStr s') : s = s' := by
  obtain ⟨q, r, -, h1, h2⟩ := C166_literal s
  obtain ⟨q', r', -, h1', h2'⟩ := C166_literal s'
  rw [h, h1'] at h1
  injection h1 with a b
  subst a b
  rw [h2'] at h2
  exact (Option.some.inj h2).symm

/-- and it has no control characters: what is logged stays on one line -/
theorem C166_printable (s : PyStr) : ∀ x ∈ reprStr s, 32 ≤ x ∧ x ≠ 127 ∧ ¬ (128 ≤ x ∧ x ≤ 160) ∧ x ≠ 173 := by
  have hd : ∀ d, d < 16 → 48 ≤ hexDigit d ∧ hexDigit d ≤ 102 := by
    intro d hd
    unfold hexDigit
    split <;> omega
  have one : ∀ q c, q = 34 ∨ q = 39 → ∀ x ∈ reprChar q c, 32 ≤ x ∧ x ≠ 127 ∧ ¬ (128 ≤ x ∧ x ≤ 160) ∧ x ≠ 173 := by
    intro q c hq x hx
    unfold reprChar at hx
    split at hx
    · simp only [List.mem_cons, List.not_mem_nil, or_false] at hx
      omega
    · split at hx
      · revert x; decide
      · split at hx
        · revert x; decide
        · split at hx
          · revert x; decide
          · split at hx
            · next h =>
              rcases List.mem_append.1 hx with hx | hx
              · clear h hd; simp only [py] at hx; have : x = 92 ∨ x = 120 := by simpa using hx
                omega
              · have h1 := hd (c / 16) (by omega)
                have h2 := hd (c % 16) (by omega)
                simp only [List.mem_cons, List.not_mem_nil, or_false] at hx
                rcases hx with rfl | rfl <;> omega
            · simp only [List.mem_cons, List.not_mem_nil, or_false] at hx
              omega
  unfold reprStr
  have hq : (if 39 ∈ s ∧ 34 ∉ s then 34 else 39) = 34 ∨ (if 39 ∈ s ∧ 34 ∉ s then 34 else 39) = 39 := by
    split
    · exact .inl rfl
    · exact .inr rfl
  generalize (if 39 ∈ s ∧ 34 ∉ s then 34 else 39) = q at hq
  intro x hx
  simp only [List.mem_append, List.mem_cons, List.not_mem_nil, or_false, List.mem_flatMap] at hx
  rcases hx with (rfl | ⟨c, -, hx⟩) | rfl
  · omega
  · exact one q c hq x hx
  · omega

example : reprStr (py "it's\n") = py "\"it's\\n\"" ∧ reprStr [127, 34] = py "'\\x7f\"'" := by decide

/-- the classes of errors of a pool are told apart by the text -/
theorem C166_class (c c' : ErrCls) (h : c.name = c'.name) : c = c' := by
  revert h
  cases c <;> cases c' <;> decide

/-- an error made without arguments has no text; with several, the text is the tuple of their literals -/
theorem C166_other_arguments (c : ErrCls) (hc : ¬ ofPool c) (hp : ¬ prefixed c) :
    (∃ e, c.make [] = some e ∧ e.text = []) ∧
    ∀ a b, ∃ e, c.make [a, b] = some e ∧ e.text = py "(" ++ a.repr ++ py ", " ++ b.repr ++ py ")" := by
  cases c <;> simp [ofPool] at hc <;> simp [prefixed] at hp <;>
    exact ⟨⟨_, rfl, rfl⟩, fun a b => ⟨_, rfl, by simp [ErrObj.text, ErrObj.argRepr]⟩⟩

/-- an error with an object and a string -/
example : (ErrCls.socketValue.make [samplePool, .str (py "x")]).map ErrObj.text =
    (match samplePool with | .obj _ r => some (py "(" ++ r ++ py ", 'x')") | _ => none) := by
  decide +kernel

end Bolt
