import Verif.Props.ListenerReader
/-!
# C70–C82: what the listener answers
-/
namespace Bolt
open Spec

/-- The listener has nothing left to do: the reader waits and all tasks have ended. -/
def LSt.settled (s : LSt) : Prop := s.idle ∧ ∀ t ∈ s.tasks, t.st = .ended

/-- The listener can only wait for bytes and for methods: the reader waits, and all tasks have ended or wait for theirs. -/
def LSt.resting (s : LSt) : Prop := s.idle ∧ ∀ t ∈ s.tasks, t.st = .ended ∨ ∃ d, t.st = .waiting d

theorem LSt.settled.resting {s : LSt} (h : s.settled) : s.resting := ⟨h.1, fun t ht => .inl (h.2 t ht)⟩

namespace Spec

/-- Everything that has to be sent: by the tasks, and by the reader. -/
def owing (s : LSt) : List Bytes := s.tasks.filterMap taskReply ++ s.acts.filterMap actReply

end Spec

/-! ### the ledger: messages sent are messages owed, one by one -/

/-- entries of a list that yield something, with their positions -/
def numbered {α : Type} (c : Nat → Origin) (g : α → Option Bytes) (l : List α) (n : Nat) : List (Origin × Bytes) :=
  match l with
  | [] => []
  | a :: l => ((g a).map fun m => (c n, m)).toList ++ numbered c g l (n + 1)

theorem numbered_snd {α : Type} (c : Nat → Origin) (g : α → Option Bytes) (l : List α) (n : Nat) :
    (numbered c g l n).map Prod.snd = l.filterMap g := by
  induction l generalizing n with
  | nil => rfl
  | cons a l ih =>
    rw [numbered, List.map_append, ih, List.filterMap_cons]
    cases g a <;> rfl

theorem mem_numbered {α : Type} (c : Nat → Origin) (g : α → Option Bytes) (l : List α) (n : Nat) (o : Origin) (m : Bytes) :
    (o, m) ∈ numbered c g l n ↔ ∃ (i : Nat) (a : α), l[i]? = some a ∧ g a = some m ∧ o = c (n + i) := by
  induction l generalizing n with
  | nil => simp [numbered]
  | cons a l ih =>
    rw [numbered, List.mem_append, ih]
    constructor
    · rintro (h | ⟨i, b, h1, h2, h3⟩)
      · refine ⟨0, a, rfl, ?_⟩
        cases hg : g a with
        | none => rw [hg] at h; simp at h
        | some m' => rw [hg] at h; simp at h; simp [h]
      · exact ⟨i + 1, b, by simpa using h1, h2, by rw [h3]; congr 1; omega⟩
    · rintro ⟨i, b, h1, h2, h3⟩
      cases i with
      | zero => left; simp at h1; subst h1; rw [h2]; simp [h3]
      | succ i => right; exact ⟨i, b, by simpa using h1, h2, by rw [h3]; congr 1; omega⟩

theorem numbered_nodup {α : Type} (c : Nat → Origin) (hc : ∀ i j, c i = c j → i = j) (g : α → Option Bytes) (l : List α)
    (n : Nat) : (numbered c g l n).Nodup := by
  induction l generalizing n with
  | nil => exact List.nodup_nil
  | cons a l ih =>
    rw [numbered]
    cases g a with
    | none => exact ih (n + 1)
    | some m =>
      simp only [Option.map_some, Option.toList_some, List.singleton_append, List.nodup_cons]
      refine ⟨?_, ih (n + 1)⟩
      intro h
      rw [mem_numbered] at h
      obtain ⟨i, b, -, -, h3⟩ := h
      have := hc _ _ h3
      omega

/-- a task that waits for its method owes nothing yet -/
theorem waiting_owes_nothing {svc : Services} {s : LSt} (h : LInv svc s) {i : Nat} {t : Task} {d : Option Int}
    (ht : s.tasks[i]? = some t) (hd : t.st = .waiting d) : taskReply t = none := by
  have hok := h.task i t ht
  unfold TaskOk at hok
  unfold taskReply
  cases hk : t.kind with
  | heartbeat id =>
    rw [hk, hd] at hok
    rcases hok.2 with h1 | h1 <;> cases h1
  | dispatch r =>
    rw [hk] at hok
    dsimp only at hok
    rw [hd] at hok
    have : t.fate = none := hok.1.1
    dsimp only
    rw [this]
    rfl

/-- The ledger: on a connection that is open and rests, the messages written are those owed, each once. -/
theorem ledger_resting {svc : Services} {s : LSt} (h : LInv svc s) (hs : s.resting) (hc : s.closed = false) :
    (s.out.map Prod.snd).Perm (owing s) := by
  have key : s.out.Perm (numbered .task taskReply s.tasks 0 ++ numbered .reader actReply s.acts 0) := by
    have n1 : s.out.Nodup := by
      have := h.nodup
      rw [List.Nodup, List.pairwise_map] at this
      exact this.imp (fun hab e => hab (by rw [e]))
    have n2 : (numbered .task taskReply s.tasks 0 ++ numbered .reader actReply s.acts 0).Nodup := by
      rw [List.nodup_append]
      refine ⟨numbered_nodup _ (by intro i j h; cases h; rfl) _ _ _,
        numbered_nodup _ (by intro i j h; cases h; rfl) _ _ _, ?_⟩
      rintro ⟨o, m⟩ ha ⟨o', m'⟩ hb e
      rw [mem_numbered] at ha hb
      obtain ⟨i, t, -, -, h1⟩ := ha
      obtain ⟨j, a, -, -, h2⟩ := hb
      cases e
      rw [h1] at h2
      cases h2
    rw [List.perm_ext_iff_of_nodup n1 n2]
    rintro ⟨o, m⟩
    rw [List.mem_append, mem_numbered, mem_numbered]
    constructor
    · intro hm
      cases o with
      | task i =>
        obtain ⟨t, ht, -, hr⟩ := h.outTask i m hm
        exact .inl ⟨i, t, ht, hr, by simp⟩
      | reader n =>
        obtain ⟨a, ha, hr, -⟩ := h.outReader n m hm
        exact .inr ⟨n, a, ha, hr, by simp⟩
    · rintro (⟨i, t, ht, hr, rfl⟩ | ⟨n, a, ha, hr, rfl⟩)
      · rw [Nat.zero_add]
        rcases hs.2 t (List.mem_of_getElem? ht) with he | ⟨d, hd⟩
        · rcases h.ended i t m ht he hr with hx | hx
          · rw [hc] at hx; cases hx
          · exact hx
        · rw [waiting_owes_nothing h ht hd] at hr
          cases hr
      · rw [Nat.zero_add]
        rcases h.readerOut n a m ha hr with hx | hx | ⟨-, hx⟩
        · rw [hc] at hx; cases hx
        · exact hx
        · exact absurd hs.1.1 hx
  have := key.map Prod.snd
  rwa [List.map_append, numbered_snd, numbered_snd] at this

/-- The ledger of a connection that is open and settled. -/
theorem ledger {svc : Services} {s : LSt} (h : LInv svc s) (hs : s.settled) (hc : s.closed = false) :
    (s.out.map Prod.snd).Perm (owing s) := ledger_resting h hs.resting hc

/-! ### messages are response frames -/

/-- the messages that answer an id: the heartbeat acknowledgement, and a response with some status and content -/
inductive Spec.Answers (id : Int) : Bytes → Prop
  | ack : Answers id (heartbeatAck id)
  | reply (st : RespStatus) (c : Bytes) (hc : c.length < 4294967296) : Answers id (reply id st.code c)

theorem status_range (st : RespStatus) : -32768 ≤ st.code ∧ st.code < 32768 := by cases st <;> decide

theorem reply_fit (id : Int) (st : RespStatus) (hid : IdOk id) : Fields.Fit false ⟨1, 0, 2, 1, id, 11, st.code⟩ :=
  ⟨by simp, by simp, by simp, by simp, hid, by simp, by simpa using status_range st⟩

theorem ack_fit (id : Int) (hid : IdOk id) : Fields.Fit false ⟨1, 0, 0, 1, id, 11, 0⟩ :=
  ⟨by simp, by simp, by simp, by simp, hid, by simp, by simp⟩

theorem reply_body (c : Bytes) (hc : c.length < 4294967296) : BodyFit respClass [] c :=
  ⟨by decide, by decide, hc⟩

theorem reply_decodes (id : Int) (st : RespStatus) (c : Bytes) (hid : IdOk id) (hc : c.length < 4294967296) :
    ∃ p, fromStream .boltResponse (reply id st.code c) = .ok p ∧ p.requestId = .int id ∧ p.respstatus = st ∧
      p.content = .bytes c ∧ p.cmdcode = .response ∧ p.ptype = .response ∧ p.header = [] := by
  let p : Pkg := ⟨.boltResponse, [], [], .bytes c, .bolt, .response, .response, .remoting, .int id, .protobuf,
    .int 0, st⟩
  refine ⟨p, ?_, rfl, rfl, rfl, rfl, rfl, rfl⟩
  rw [fromStream_ok_iff]
  exact ⟨⟨1, 0, 2, 1, id, 11, st.code⟩, respClass, [], c, [], rfl, reply_fit id st hid, reply_body c hc,
    headerFromBytes_flatten (kvs := []) .nil, ⟨rfl, rfl, rfl, rfl, rfl, rfl, rfl, rfl, rfl, rfl, rfl, rfl⟩⟩

theorem ack_decodes (id : Int) (hid : IdOk id) :
    ∃ p, fromStream .boltResponse (heartbeatAck id) = .ok p ∧ p.requestId = .int id ∧ p.respstatus = .success ∧
      p.content = .bytes [] ∧ p.cmdcode = .heartbeat ∧ p.ptype = .response ∧ p.header = [] := by
  let p : Pkg := ⟨.boltResponse, [], [], .bytes [], .bolt, .response, .heartbeat, .remoting, .int id, .protobuf,
    .int 0, .success⟩
  refine ⟨p, ?_, rfl, rfl, rfl, rfl, rfl, rfl⟩
  rw [fromStream_ok_iff]
  exact ⟨⟨1, 0, 0, 1, id, 11, 0⟩, [], [], [], [], rfl, ack_fit id hid, bodyFit_nil,
    headerFromBytes_flatten (kvs := []) .nil, ⟨rfl, rfl, rfl, rfl, rfl, rfl, rfl, rfl, rfl, rfl, rfl, rfl⟩⟩

theorem answers_decodes {id : Int} {m : Bytes} (hid : IdOk id) (h : Answers id m) :
    ∃ p, fromStream .boltResponse m = .ok p ∧ p.requestId = .int id ∧ p.ptype = .response ∧ p.header = [] := by
  cases h with
  | ack =>
    obtain ⟨p, h1, h2, -, -, -, h3, h4⟩ := ack_decodes id hid
    exact ⟨p, h1, h2, h3, h4⟩
  | reply st c hc =>
    obtain ⟨p, h1, h2, -, -, -, h3, h4⟩ := reply_decodes id st c hid hc
    exact ⟨p, h1, h2, h3, h4⟩

theorem answers_id {id id' : Int} {m : Bytes} (hid : IdOk id) (hid' : IdOk id') (h : Answers id m)
    (h' : Answers id' m) : id = id' := by
  obtain ⟨p, h1, h2, -⟩ := answers_decodes hid h
  obtain ⟨p', h1', h2', -⟩ := answers_decodes hid' h'
  rw [h1] at h1'
  cases h1'
  rw [h2] at h2'
  cases h2'
  rfl

/-- replies with different ids, statuses or contents are different, and no reply is an acknowledgement -/
theorem reply_inj {id id' : Int} {st st' : RespStatus} {c c' : Bytes} (hid : IdOk id) (hid' : IdOk id')
    (hc : c.length < 4294967296) (hc' : c'.length < 4294967296) (h : reply id st.code c = reply id' st'.code c') :
    id = id' ∧ st = st' ∧ c = c' := by
  obtain ⟨p, h1, h2, h3, h4, -⟩ := reply_decodes id st c hid hc
  obtain ⟨p', h1', h2', h3', h4', -⟩ := reply_decodes id' st' c' hid' hc'
  rw [h, h1'] at h1
  cases h1
  rw [h2] at h2'
  rw [h3] at h3'
  rw [h4] at h4'
  cases h2'
  cases h4'
  exact ⟨rfl, h3', rfl⟩

theorem reply_ne_ack {id id' : Int} {st : RespStatus} {c : Bytes} (hid : IdOk id) (hid' : IdOk id')
    (hc : c.length < 4294967296) : reply id st.code c ≠ heartbeatAck id' := by
  intro h
  obtain ⟨p, h1, -, -, -, h5, -⟩ := reply_decodes id st c hid hc
  obtain ⟨p', h1', -, -, -, h5', -⟩ := ack_decodes id' hid'
  rw [h, h1'] at h1
  cases h1
  rw [h5] at h5'
  cases h5'

/-- the request id a task works for -/
def TaskKind.id : TaskKind → Int
  | .heartbeat id => id
  | .dispatch r => r.id

theorem owed_answers {id : Int} {f : Fate} {m : Bytes} (h : owed id f = some m) :
    ∃ st c, c.length < 4294967296 ∧ m = reply id (RespStatus.code st) c := by
  have n : ([] : Bytes).length < 4294967296 := by decide
  unfold owed at h
  split at h
  · cases h; exact ⟨.clientSendError, [], n, rfl⟩
  · cases h
  · cases h; exact ⟨.noProcessor, [], n, rfl⟩
  · cases h; exact ⟨.serverException, [], n, rfl⟩
  · cases h
  · cases h; exact ⟨.timeout, [], n, rfl⟩
  · cases h; exact ⟨.timeout, [], n, rfl⟩
  · cases h; exact ⟨.timeout, [], n, rfl⟩
  · cases h; exact ⟨.unknown, [], n, rfl⟩
  · split at h
    · next c hc => cases h; exact ⟨.success, _, hc.2, rfl⟩
    · cases h
  · cases h

theorem taskReply_answers {t : Task} {m : Bytes} (h : taskReply t = some m) : Answers t.kind.id m := by
  unfold taskReply at h
  split at h
  · next id hk => cases h; rw [hk]; exact .ack
  · next r hk =>
    rw [hk]
    cases hf : t.fate with
    | none => rw [hf] at h; cases h
    | some f =>
      rw [hf] at h
      obtain ⟨st, c, hc, rfl⟩ := owed_answers (show owed r.id f = some m from h)
      exact .reply st c hc

theorem actReply_answers {a : Act} {m : Bytes} (h : actReply a = some m) : ∃ id, actId a = some id ∧ Answers id m := by
  have n : ([] : Bytes).length < 4294967296 := by decide
  unfold actReply at h
  split at h
  · cases h; exact ⟨_, rfl, .reply _ _ n⟩
  · cases h; exact ⟨_, rfl, .reply _ _ n⟩
  · cases h

theorem task_act {svc : Services} {s : LSt} (h : LInv svc s) {i : Nat} {t : Task} (ht : s.tasks[i]? = some t) :
    ∃ a ∈ s.acts, actTask a = some t.kind ∧ actId a = some t.kind.id := by
  have hm : t.kind ∈ s.tasks.map Task.kind := List.mem_map_of_mem (List.mem_of_getElem? ht)
  rw [h.kinds, List.mem_filterMap] at hm
  obtain ⟨a, ha, hk⟩ := hm
  refine ⟨a, ha, hk, ?_⟩
  cases a with
  | dispatch r => simp only [actTask, Option.some.injEq] at hk; rw [← hk]; rfl
  | heartbeat id => simp only [actTask, Option.some.injEq] at hk; rw [← hk]; rfl
  | _ => cases hk

/-- the id an entry of the output answers -/
theorem out_answers {svc : Services} {s : LSt} (h : LInv svc s) {o : Origin} {m : Bytes} (hm : (o, m) ∈ s.out) :
    ∃ a ∈ s.acts, ∃ id, actId a = some id ∧ IdOk id ∧ Answers id m := by
  cases o with
  | task i =>
    obtain ⟨t, ht, -, hr⟩ := h.outTask i m hm
    obtain ⟨a, ha, -, hid⟩ := task_act h ht
    exact ⟨a, ha, _, hid, h.actsOk a ha _ hid, taskReply_answers hr⟩
  | reader n =>
    obtain ⟨a, ha, hr, -⟩ := h.outReader n m hm
    obtain ⟨id, hid, hans⟩ := actReply_answers hr
    have ha' := List.mem_of_getElem? ha
    exact ⟨a, ha', id, hid, h.actsOk a ha' id hid, hans⟩

theorem acts_headers (svc : Services) (reg : Registry) (evs : List LEv) :
    ∀ a ∈ (lrun svc reg evs).acts, ∀ i, actId a = some i → HeaderAt (received evs) i := by
  obtain ⟨e1, -, -⟩ := lrun_env svc reg evs
  obtain ⟨l, rd, hs, hc⟩ := ReadInv.run svc reg evs
  rw [e1] at hs
  rcases hc with ⟨ha, -⟩ | ⟨-, ha, -⟩ | ⟨-, -, -, -, ha⟩
  · rw [ha]; exact headerAt_of_acts hs
  · rw [ha]; exact headerAt_of_acts hs
  · rw [ha]
    intro a hm i hi
    rw [List.mem_append] at hm
    rcases hm with hm | hm
    · exact headerAt_of_acts hs a hm i hi
    · simp only [List.mem_singleton] at hm
      subst hm
      exact headerAt_of_steps hs i hi

/-! ## C71 -/

/-- C71. Whatever bytes arrive and whatever the schedule: every message written is a well-formed response, and its id
is in a frame header that the reader has found, at a frame boundary, in the bytes received. -/
theorem C71_replies_to_requests (svc : Services) (reg : Registry) (evs : List LEv) (o : Origin) (m : Bytes)
    (hm : (o, m) ∈ (lrun svc reg evs).out) :
    ∃ id p, HeaderAt (received evs) id ∧ fromStream .boltResponse m = .ok p ∧ p.requestId = .int id ∧
      p.ptype = .response ∧ p.header = [] := by
  obtain ⟨a, ha, id, hid, hok, hans⟩ := out_answers (LInv.run svc reg evs) hm
  obtain ⟨p, h1, h2, h3, h4⟩ := answers_decodes hok hans
  exact ⟨id, p, acts_headers svc reg evs a ha id hid, h1, h2, h3, h4⟩

/-! ## C77 -/

/-- `bs` is cut into these messages by reading, again and again, the length a response header declares. -/
inductive Spec.CutInto : Bytes → List Bytes → Prop
  | nil : CutInto [] []
  | cons (m rest : Bytes) (ms : List Bytes) (h : declaredLength false (m ++ rest) = m.length) (hm : m ≠ [])
      (t : CutInto rest ms) : CutInto (m ++ rest) (m :: ms)

/-- there is only one way to cut -/
theorem cutInto_unique {bs : Bytes} {ms ms' : List Bytes} (h : CutInto bs ms) (h' : CutInto bs ms') : ms = ms' := by
  induction h generalizing ms' with
  | nil =>
    generalize he : ([] : Bytes) = bs at h'
    cases h' with
    | nil => rfl
    | cons m rest ms h hm t => simp at he; exact absurd he.1 hm
  | cons m rest ms h hm t ih =>
    generalize he : m ++ rest = bs at h'
    cases h' with
    | nil => simp at he; exact absurd he.1 hm
    | cons m' rest' ms' h' hm' t' =>
      rw [he, h'] at h
      obtain ⟨e1, e2⟩ := List.append_inj he h.symm
      subst e1
      subst e2
      rw [ih t']

/-- C77. At any moment of any schedule, the bytes on the wire are a concatenation of complete response frames: a
client that reads a header, and then as many bytes as the header declares, and so on, gets exactly the messages
written, in order, each of which decodes. -/
theorem C77_no_interleaving (svc : Services) (reg : Registry) (evs : List LEv) :
    CutInto (lrun svc reg evs).wire ((lrun svc reg evs).out.map Prod.snd) ∧
    ∀ m ∈ (lrun svc reg evs).out.map Prod.snd, ∃ p, fromStream .boltResponse m = .ok p := by
  have h := LInv.run svc reg evs
  have hd : ∀ m ∈ (lrun svc reg evs).out.map Prod.snd, ∃ p, fromStream .boltResponse m = .ok p := by
    intro m hm
    rw [List.mem_map] at hm
    obtain ⟨⟨o, m⟩, hm, rfl⟩ := hm
    obtain ⟨a, ha, id, hid, hok, hans⟩ := out_answers h hm
    obtain ⟨p, h1, -⟩ := answers_decodes hok hans
    exact ⟨p, h1⟩
  refine ⟨?_, hd⟩
  unfold LSt.wire
  revert hd
  generalize (lrun svc reg evs).out.map Prod.snd = ms
  intro hd
  induction ms with
  | nil => exact .nil
  | cons m ms ih =>
    rw [List.flatten_cons]
    obtain ⟨p, hp⟩ := hd m (by simp)
    rw [fromStream_ok_iff] at hp
    obtain ⟨f, cn, hb, ct, d, rfl, -, hbf, -⟩ := hp
    refine .cons _ _ _ ?_ ?_ (ih fun x hx => hd x (by simp [hx]))
    · exact declaredLength_frame false f cn hb ct hbf _
    · intro e
      have := congrArg List.length e
      rw [frame_length] at this
      simp [PkgClass.isRequest] at this

/-! ## C70 -/

/-- C70 as listed: every heartbeat frame, whatever its header bytes. -/
def C70_full : Prop :=
  ∀ (svc : Services) (reg : Registry) (evs : List LEv) (pre : List AnyFrame) (f : Fields) (cls hdr content post : Bytes),
    (∀ q ∈ pre, q.Ok) → Fields.Fit true f → BodyFit cls hdr content → f.cmdcode = 0 →
    received evs = framesBytes pre ++ frame true f cls hdr content ++ post → sawEof evs = false → .reset ∉ evs →
    (lrun svc reg evs).idle →
    ∃ l, (lrun svc reg evs).acts = pre.map AnyFrame.verdict ++ [.heartbeat f.requestId] ++ l

set_option maxRecDepth 20000 in
/-- A heartbeat with an undecodable header is answered CODEC_EXCEPTION. -/
theorem C70_violated : ¬ C70_full := by
  intro h
  obtain ⟨l, h1⟩ := h noServices [] (.data (frame true ⟨1, 1, 0, 1, 5, 11, 100⟩ [] [0] []) :: List.replicate 5 .reader)
    [] ⟨1, 1, 0, 1, 5, 11, 100⟩ [] [0] [] []
    (by intro q hq; cases hq) (by constructor <;> decide) (by decide) rfl rfl (by decide +kernel) (by decide +kernel)
    (by constructor <;> decide +kernel)
  have : (lrun noServices [] (.data (frame true ⟨1, 1, 0, 1, 5, 11, 100⟩ [] [0] []) ::
      List.replicate 5 .reader)).acts = [.reject 5 .codecException] := by decide +kernel
  rw [this] at h1
  simp at h1

/-- an open, undisturbed connection that has read whole frames is open -/
theorem frames_acts (svc : Services) (reg : Registry) (evs : List LEv) (qs : List AnyFrame) (hq : ∀ q ∈ qs, q.Ok)
    (hb : received evs = framesBytes qs) (he : sawEof evs = false) (hn : .reset ∉ evs)
    (hi : (lrun svc reg evs).idle) :
    (lrun svc reg evs).acts = qs.map AnyFrame.verdict ∧ (lrun svc reg evs).closed = false := by
  obtain ⟨e1, e2, e3⟩ := lrun_env svc reg evs
  have hl : (lrun svc reg evs).lost = false := by rw [e3]; simpa using hn
  obtain ⟨l, rd, h1, hc⟩ := ReadInv.run svc reg evs
  rcases hc with ⟨ha, hr⟩ | ⟨h, -⟩ | ⟨h, -⟩
  · subst hr
    have h2 : readerIter (lrun svc reg evs).rd (lrun svc reg evs).buf false = none := by
      have := hi.2
      rwa [e2, he] at this
    rw [e1, hb] at h1
    obtain ⟨last', hr, -⟩ := reads_frames qs hq none []
    rw [List.append_nil] at hr
    have hstop : readerIter ⟨.hdr, last'⟩ [] false = none := by rfl
    obtain ⟨rfl, e4, -⟩ := h1.unique h2 hr hstop
    refine ⟨ha, ?_⟩
    cases hcl : (lrun svc reg evs).closed with
    | false => rfl
    | true =>
      rcases (ReplyInv.run svc reg evs).closed hcl with h | ⟨h, -⟩
      · rw [hl] at h; cases h
      · rw [e4] at h; cases h
  · rw [hl] at h; cases h
  · rw [e2, he] at h; cases h

/-- C70, what holds. On an open connection that has received any frames with decodable headers, each heartbeat frame,
whatever its class name and content, has been acknowledged exactly once when the listener rests, whether methods are still
running or not: as many acknowledgements with an id have been written as heartbeats with that id have been received, and
no heartbeat is dispatched. Missing for C70: heartbeats with undecodable headers (see `C69_undecodable_header_partial`). -/
theorem C70_heartbeats_partial (svc : Services) (reg : Registry) (evs : List LEv) (qs : List AnyFrame)
    (hq : ∀ q ∈ qs, q.Ok) (hb : received evs = framesBytes qs) (he : sawEof evs = false) (hn : .reset ∉ evs)
    (hs : (lrun svc reg evs).resting) :
    (∀ id : Int, IdOk id → ((lrun svc reg evs).out.map Prod.snd).count (heartbeatAck id) =
      qs.countP fun q => q.f.cmdcode = 0 ∧ q.f.requestId = id) ∧
    (lrun svc reg evs).acts = qs.map AnyFrame.verdict ∧
    ∀ q ∈ qs, q.f.cmdcode = 0 → q.verdict = .heartbeat q.f.requestId := by
  obtain ⟨ha, hc⟩ := frames_acts svc reg evs qs hq hb he hn hs.1
  have hinv := LInv.run svc reg evs
  refine ⟨?_, ha, ?_⟩
  · intro id hid
    have hp := (ledger_resting hinv hs hc).count_eq (heartbeatAck id)
    rw [hp]
    unfold owing
    rw [List.count_append]
    have z : ((lrun svc reg evs).acts.filterMap actReply).count (heartbeatAck id) = 0 := by
      rw [List.count_eq_zero]
      intro hm
      rw [List.mem_filterMap] at hm
      obtain ⟨a, ham, hr⟩ := hm
      have n : ([] : Bytes).length < 4294967296 := by decide
      cases a with
      | reject i st => simp [actReply] at hr; exact reply_ne_ack (hinv.actsOk _ ham i rfl) hid n hr
      | close i st =>
        cases i with
        | none => simp [actReply] at hr
        | some i => simp [actReply] at hr; exact reply_ne_ack (hinv.actsOk _ ham i rfl) hid n hr
      | _ => simp [actReply] at hr
    rw [z, Nat.add_zero]
    -- tasks' replies that are this acknowledgement: the heartbeat tasks with this id
    have e1 : ((lrun svc reg evs).tasks.filterMap taskReply).count (heartbeatAck id) =
        ((lrun svc reg evs).tasks.map Task.kind).countP (· = .heartbeat id) := by
      have hall : ∀ t ∈ (lrun svc reg evs).tasks, IdOk t.kind.id := by
        intro t ht
        obtain ⟨i, hi⟩ := List.getElem?_of_mem ht
        obtain ⟨a, ham, -, hid⟩ := task_act hinv hi
        exact hinv.actsOk a ham _ hid
      revert hall
      generalize (lrun svc reg evs).tasks = ts
      intro hall
      induction ts with
      | nil => rfl
      | cons t ts ih =>
        have ih := ih (fun x hx => hall x (by simp [hx]))
        have hidt := hall t (by simp)
        rw [List.filterMap_cons, List.map_cons, List.countP_cons, ← ih]
        cases hk : t.kind with
        | heartbeat i =>
          have hr : taskReply t = some (heartbeatAck i) := by simp [taskReply, hk]
          rw [hr]
          dsimp only
          rw [List.count_cons]
          rw [hk] at hidt
          by_cases hi : i = id
          · simp [hi]
          · have : heartbeatAck i ≠ heartbeatAck id := fun e =>
              hi (answers_id hidt hid (.ack) (by rw [e]; exact .ack))
            simp [hi, this]
        | dispatch r =>
          rw [hk] at hidt
          cases hr : taskReply t with
          | none => simp
          | some m =>
            dsimp only
            rw [List.count_cons]
            have : m ≠ heartbeatAck id := by
              rintro rfl
              simp only [taskReply, hk] at hr
              cases hf : t.fate with
              | none => rw [hf] at hr; cases hr
              | some f =>
                rw [hf] at hr
                obtain ⟨st, c, hcl, e⟩ := owed_answers (show owed r.id f = some _ from hr)
                exact reply_ne_ack hidt hid hcl e.symm
            simp [this]
    rw [e1, hinv.kinds, ha]
    clear e1 z hp ha hc hb hq
    induction qs with
    | nil => rfl
    | cons q qs ih =>
      rw [List.map_cons, List.filterMap_cons, List.countP_cons, ← ih]
      unfold AnyFrame.verdict
      by_cases h0 : q.f.cmdcode = 0
      · rw [if_pos h0]
        simp only [actTask, h0, true_and]
        rw [List.countP_cons]
        by_cases hi : q.f.requestId = id <;> simp [hi]
      · rw [if_neg h0]
        by_cases hr : q.Refused
        · rw [if_pos hr]; simp [actTask, h0]
        · rw [if_neg hr]; simp [actTask, h0]
  · intro q _ h0
    unfold AnyFrame.verdict
    rw [if_pos h0]

/-! ## C72, C73 -/

theorem filter_one {l : List (Origin × Bytes)} (h : (l.map Prod.fst).Nodup) {o : Origin} {m : Bytes}
    (hm : (o, m) ∈ l) : l.filter (fun x => x.1 = o) = [(o, m)] := by
  induction l with
  | nil => cases hm
  | cons x l ih =>
    simp only [List.map_cons, List.nodup_cons] at h
    rw [List.mem_cons] at hm
    rcases hm with rfl | hm
    · rw [List.filter_cons, if_pos (by simp)]
      congr 1
      rw [List.filter_eq_nil_iff]
      intro y hy he
      simp only [decide_eq_true_eq] at he
      exact h.1 (List.mem_map.2 ⟨y, hy, he⟩)
    · rw [List.filter_cons, if_neg, ih h.2 hm]
      simp only [decide_eq_true_eq]
      intro e
      exact h.1 (List.mem_map.2 ⟨(o, m), hm, e.symm⟩)

/-- what a task has written, when everything has settled -/
theorem task_written {svc : Services} {s : LSt} (h : LInv svc s) (hs : s.settled) (hc : s.closed = false) {j : Nat}
    {t : Task} (ht : s.tasks[j]? = some t) :
    s.out.filter (fun x => x.1 = .task j) = match taskReply t with
      | some m => [(.task j, m)]
      | none => [] := by
  cases hr : taskReply t with
  | some m =>
    rcases h.ended j t m ht (hs.2 t (List.mem_of_getElem? ht)) hr with hx | hx
    · rw [hc] at hx; cases hx
    · exact filter_one h.nodup hx
  | none =>
    dsimp only
    rw [List.filter_eq_nil_iff]
    rintro ⟨o, m⟩ hm he
    simp only [decide_eq_true_eq] at he
    subst he
    obtain ⟨t', ht', -, hr'⟩ := h.outTask j m hm
    rw [ht] at ht'
    cases ht'
    rw [hr] at hr'
    cases hr'

/-- C72 as listed: exactly one message is written for each two-way request, once everything has settled, if the
connection has stayed open. -/
def C72_full : Prop :=
  ∀ (svc : Services) (reg : Registry) (evs : List LEv) (j : Nat) (t : Task) (r : Req),
    (lrun svc reg evs).settled → (lrun svc reg evs).closed = false → (lrun svc reg evs).tasks[j]? = some t →
    t.kind = .dispatch r → r.callType ≠ 2 →
    ∃ m, (lrun svc reg evs).out.filter (fun x => x.1 = .task j) = [(.task j, m)]

/-- services whose every class has every method -/
def exServices : Services := ⟨fun c _ _ _ _ => .ok c, fun o _ => .ok o⟩

instance (s : LSt) : Decidable s.idle := by unfold LSt.idle; infer_instance
instance (s : LSt) : Decidable s.settled := by unfold LSt.settled; infer_instance

/-- class 0 is registered for interface `s` -/
def exReg : Registry := registerInterface [] ⟨py "s", 0, [], []⟩

/-- one request is read, dispatched, and its call ends with the given outcome -/
def exCallEvs (bs : Bytes) (o : Outcome) : List LEv :=
  [.data bs, .reader, .reader, .reader, .reader, .run 0 (py "t"), .futStart 0, .futFinish 0 o, .result 0]

set_option maxRecDepth 20000 in
/-- A two-way request whose method returns `b''` (or None) is never answered. -/
theorem C72_violated : ¬ C72_full := by
  intro h
  obtain ⟨m, hm⟩ := h exServices exReg
    (exCallEvs (exReq 3 [1]).bytes (.ret (.bytes []))) 0
    ⟨.dispatch (exReq 3 [1]).req, .ended, some 0, some (.answered (.ret (.bytes []))),
      some exReg, some 0⟩ (exReq 3 [1]).req
    (by decide +kernel) (by decide +kernel) (by decide +kernel) rfl (by decide)
  have : (lrun exServices exReg
    (exCallEvs (exReq 3 [1]).bytes (.ret (.bytes [])))).out = [] := by decide +kernel
  rw [this] at hm
  cases hm

/-- C72, what holds: when everything has settled and the connection is open, a two-way request has got exactly one
message, unless its call ended with something else than non-empty bytes of less than 4 GiB (and did not raise), or
its header carries a trace context that cannot be decoded. Missing for C72: these two cases. -/
theorem C72_one_response_partial (svc : Services) (reg : Registry) (evs : List LEv) (j : Nat) (t : Task) (r : Req)
    (hs : (lrun svc reg evs).settled) (hc : (lrun svc reg evs).closed = false)
    (ht : (lrun svc reg evs).tasks[j]? = some t) (hk : t.kind = .dispatch r) (h2 : r.callType ≠ 2) :
    ∃ f, t.fate = some f ∧
      ((∃ m, owed r.id f = some m ∧
          (lrun svc reg evs).out.filter (fun x => x.1 = .task j) = [(.task j, m)]) ∨
       ((lrun svc reg evs).out.filter (fun x => x.1 = .task j) = [] ∧
          (f = .badCarrier ∨ ∃ v, f = .answered (.ret v) ∧
            ¬ ∃ c, v = .bytes c ∧ c ≠ [] ∧ c.length < 4294967296))) := by
  have h := LInv.run svc reg evs
  have hw := task_written h hs hc ht
  have htk := h.task j t ht
  have hend := hs.2 t (List.mem_of_getElem? ht)
  unfold TaskOk at htk
  rw [hk] at htk
  obtain ⟨hst, hfate, -⟩ := htk
  rw [hend] at hst
  obtain ⟨f, hf⟩ := Option.isSome_iff_exists.1 (show t.fate.isSome from hst)
  have hfo := hfate f hf
  have htr : taskReply t = owed r.id f := by simp [taskReply, hk, hf]
  rw [htr] at hw
  refine ⟨f, hf, ?_⟩
  cases ho : owed r.id f with
  | some m => rw [ho] at hw; exact .inl ⟨m, rfl, hw⟩
  | none =>
    rw [ho] at hw
    refine .inr ⟨hw, ?_⟩
    cases f with
    | badCarrier => exact .inl rfl
    | accepted => exact absurd hfo.1 h2
    | answered o =>
      right
      cases o with
      | raised e => cases e <;> simp [owed] at ho
      | ret v =>
        refine ⟨v, rfl, ?_⟩
        rintro ⟨c, rfl, hc1, hc2⟩
        simp [owed, hc1, hc2] at ho
    | _ => simp [owed] at ho

/-- C72: at any moment, no request has got more than one message. -/
theorem C72_at_most_one (svc : Services) (reg : Registry) (evs : List LEv) (o : Origin) :
    ((lrun svc reg evs).out.filter (fun x => x.1 = o)).length ≤ 1 := by
  by_cases h : ∃ m, (o, m) ∈ (lrun svc reg evs).out
  · obtain ⟨m, hm⟩ := h
    rw [filter_one (LInv.run svc reg evs).nodup hm]
    exact Nat.le_refl _
  · have : (lrun svc reg evs).out.filter (fun x => x.1 = o) = [] := by
      rw [List.filter_eq_nil_iff]
      rintro ⟨o', m⟩ hm he
      simp only [decide_eq_true_eq] at he
      subst he
      exact h ⟨m, hm⟩
    rw [this]
    exact Nat.zero_le _

/-- C72/C70: the messages on the wire of an open connection that has settled are those owed for what was received,
each once and no others. -/
theorem C72_ledger (svc : Services) (reg : Registry) (evs : List LEv) (hs : (lrun svc reg evs).settled)
    (hc : (lrun svc reg evs).closed = false) :
    ((lrun svc reg evs).out.map Prod.snd).Perm (owing (lrun svc reg evs)) :=
  ledger (LInv.run svc reg evs) hs hc

set_option maxRecDepth 20000 in
example : let s := lrun exServices exReg (exCallEvs (exReq 3 [1]).bytes (.ret (.bytes [7, 8])) ++ [.write 0])
    s.settled ∧ s.closed = false ∧ s.wire = reply 3 0 [7, 8] ∧ s.tasks.map Task.kind = [.dispatch (exReq 3 [1]).req] := by
  decide +kernel

/-- C73 as listed. -/
def C73_full : Prop :=
  ∀ (svc : Services) (reg : Registry) (evs : List LEv) (j : Nat) (t : Task) (r : Req) (m : Bytes),
    (lrun svc reg evs).tasks[j]? = some t → t.kind = .dispatch r → r.callType = 2 →
    (Origin.task j, m) ∉ (lrun svc reg evs).out

/-- a one-way request -/
def exOneway : ReqFrame := ⟨⟨1, 2, 1, 1, 9, 11, 100⟩, exHdrBytes, exReqHeader, [1]⟩

set_option maxRecDepth 20000 in
/-- A one-way request for an unknown service is answered NO_PROCESSOR. -/
theorem C73_violated : ¬ C73_full := by
  intro h
  have := h exServices [] [.data exOneway.bytes, .reader, .reader, .reader, .reader, .run 0 (py "t"), .write 0] 0
    ⟨.dispatch exOneway.req, .ended, none, some .notFound, some [], none⟩ exOneway.req (reply 9 6 [])
    (by decide +kernel) rfl rfl
  exact this (by decide +kernel)

/-- C73, what holds: nothing is written for a one-way request whose call has been submitted; a message for a one-way
request is a refusal, for a missing name, an unknown service or method, or a service object that could not be built.
Missing for C73: these refusals. -/
theorem C73_oneway_partial (svc : Services) (reg : Registry) (evs : List LEv) (j : Nat) (t : Task) (r : Req)
    (m : Bytes) (ht : (lrun svc reg evs).tasks[j]? = some t) (hk : t.kind = .dispatch r) (h2 : r.callType = 2)
    (hm : (Origin.task j, m) ∈ (lrun svc reg evs).out) :
    t.fut = none ∧ ((t.fate = some .badName ∧ m = reply r.id 0x08 []) ∨
      (t.fate = some .notFound ∧ m = reply r.id 0x06 []) ∨
      (∃ e, t.fate = some (.failed e) ∧ m = reply r.id 0x02 [])) := by
  have h := LInv.run svc reg evs
  obtain ⟨t', ht', -, hr⟩ := h.outTask j m hm
  rw [ht] at ht'
  cases ht'
  have htk := h.task j t ht
  unfold TaskOk at htk
  rw [hk] at htk
  obtain ⟨-, hfate, -⟩ := htk
  simp only [taskReply, hk] at hr
  cases hf : t.fate with
  | none => rw [hf] at hr; cases hr
  | some f =>
    rw [hf] at hr
    have hfo := hfate f hf
    have ho : owed r.id f = some m := hr
    cases f with
    | badName => cases ho; exact ⟨hfo.2, .inl ⟨rfl, rfl⟩⟩
    | badCarrier => cases ho
    | notFound => cases ho; exact ⟨hfo.1, .inr (.inl ⟨rfl, rfl⟩)⟩
    | failed e => cases ho; exact ⟨hfo.1, .inr (.inr ⟨e, rfl, rfl⟩)⟩
    | accepted => cases ho
    | expired => exact absurd h2 hfo.1
    | answered o => exact absurd h2 hfo.1.1

set_option maxRecDepth 20000 in
example : let s := lrun exServices exReg (exCallEvs exOneway.bytes (.ret (.bytes [7, 8])) ++ [.write 0])
    s.settled ∧ s.wire = [] ∧ s.futs.length = 1 := by
  decide +kernel

/-! ## C74 -/

namespace Spec

/-- what looking up a method of a registered service comes to -/
inductive Lookup where
  | refused (st : RespStatus)
  | found (func : Nat)

/-- The service has to be registered (else NO_PROCESSOR); its factory is called with the context and the registered
arguments; an AttributeError there, or in the method lookup, means NO_PROCESSOR; so does a NoProcessorError that the
factory itself raises; anything else raised means SERVER_EXCEPTION. -/
def lookup (svc : Services) (reg : Registry) (h : Heap) (ctx : Baggage) (service method : PyStr) : Lookup :=
  match PyDict.get? reg service with
  | none => .refused .noProcessor
  | some f =>
    match f.call svc h ctx with
    | .error e => .refused (if e = .attributeError ∨ e = .noProcessor then .noProcessor else .serverException)
    | .ok o =>
      match svc.getattr o method with
      | .error e => .refused (if e = .attributeError ∨ e = .noProcessor then .noProcessor else .serverException)
      | .ok func => .found func

end Spec

theorem findMethod_lookup (svc : Services) (reg : Registry) (h : Heap) (ctx : Baggage) (a b : PyStr) :
    (∀ func, findMethod svc reg h ctx a b = .ok func → lookup svc reg h ctx a b = .found func) ∧
    (findMethod svc reg h ctx a b = .error .noProcessor → lookup svc reg h ctx a b = .refused .noProcessor) ∧
    (∀ e, e ≠ .noProcessor → findMethod svc reg h ctx a b = .error e →
      lookup svc reg h ctx a b = .refused .serverException) := by
  unfold findMethod lookup
  cases PyDict.get? reg a with
  | none =>
    refine ⟨?_, ?_, ?_⟩
    · intro func h; cases h
    · intro _; rfl
    · intro e he h; cases h; exact absurd rfl he
  | some f =>
    dsimp only
    cases hc : f.call svc h ctx with
    | error e =>
      simp only [bind, Except.bind]
      refine ⟨?_, ?_, ?_⟩
      · intro func h; split at h <;> cases h
      · intro h; split at h
        · next he => cases he; simp
        · next he => cases h; simp
      · intro e' he' h; split at h
        · cases h; exact absurd rfl he'
        · next hne =>
          injection h with h
          subst h
          have : e ≠ .attributeError := by rintro rfl; exact hne rfl
          simp [he', this]
    | ok o =>
      simp only [bind, Except.bind]
      cases hg : svc.getattr o b with
      | error e =>
        refine ⟨?_, ?_, ?_⟩
        · intro func h; split at h <;> cases h
        · intro h; split at h
          · next he => cases he; simp
          · next he => cases h; simp
        · intro e' he' h; split at h
          · cases h; exact absurd rfl he'
          · next hne =>
            injection h with h
            subst h
            have : e ≠ .attributeError := by rintro rfl; exact hne rfl
            simp [he', this]
      | ok x =>
        refine ⟨?_, ?_, ?_⟩
        · intro func h; cases h; rfl
        · intro h; cases h
        · intro e' he' h; cases h

/-- C74. What is written for a request is determined by what happened to it. Without usable names:
CLIENT_SEND_ERROR. Otherwise the context in its header has been extracted and the method looked up, in the registry
as it was then: if that was refused, NO_PROCESSOR or SERVER_EXCEPTION (see `Spec.lookup`). Otherwise the method found
was submitted with the body of the request, and: TIMEOUT only if the request has a positive timeout and that time has
passed since, or the call raised a TimeoutError or CancelledError; UNKNOWN if it raised something else; SUCCESS with
the non-empty bytes it returned. -/
theorem C74_status (svc : Services) (reg : Registry) (evs : List LEv) (j : Nat) (t : Task) (r : Req) (m : Bytes)
    (ht : (lrun svc reg evs).tasks[j]? = some t) (hk : t.kind = .dispatch r)
    (hm : (Origin.task j, m) ∈ (lrun svc reg evs).out) :
    match serviceOf r.header, methodOf r.header with
    | some sname, some mname =>
      ∃ (g : Registry) (h0 h : Heap) (fresh : PyStr) (ctx : Baggage), t.ran = some g ∧
        extract h0 fresh r.header = .ok (h, ctx) ∧
        match lookup svc g h ctx sname mname with
        | .refused st => m = reply r.id st.code []
        | .found func => ∃ (k : Nat) (f : Fut), t.fut = some k ∧ (lrun svc reg evs).futs[k]? = some f ∧
            f.func = func ∧ f.body = r.body ∧
            ((∃ t0, t.started = some t0 ∧ r.timeout > 0 ∧ t0 + r.timeout ≤ (lrun svc reg evs).now ∧
                m = reply r.id 0x07 []) ∨
             (∃ e, f.st = .finished (.raised e) ∧ (e = .timeoutError ∨ e = .cancelledError) ∧
                m = reply r.id 0x07 []) ∨
             (∃ e, f.st = .finished (.raised e) ∧ e ≠ .timeoutError ∧ e ≠ .cancelledError ∧ e ≠ .stopIteration ∧
                m = reply r.id 0x03 []) ∨
             (∃ c, f.st = .finished (.ret (.bytes c)) ∧ c ≠ [] ∧ m = reply r.id 0x00 c))
    | _, _ => m = reply r.id 0x08 [] := by
  have h := LInv.run svc reg evs
  obtain ⟨t', ht', -, hr⟩ := h.outTask j m hm
  rw [ht] at ht'
  cases ht'
  have htk := h.task j t ht
  unfold TaskOk at htk
  rw [hk] at htk
  obtain ⟨-, hfate, hfut⟩ := htk
  simp only [taskReply, hk] at hr
  cases hf : t.fate with
  | none => rw [hf] at hr; cases hr
  | some f =>
    rw [hf] at hr
    have hfo := hfate f hf
    have ho : owed r.id f = some m := hr
    -- requests that were submitted
    have sub : ∀ k : Nat, t.fut = some k →
        (∀ f : Fut, (lrun svc reg evs).futs[k]? = some f →
            ((∃ t0, t.started = some t0 ∧ r.timeout > 0 ∧ t0 + r.timeout ≤ (lrun svc reg evs).now ∧
                m = reply r.id 0x07 []) ∨
             (∃ e, f.st = .finished (.raised e) ∧ (e = .timeoutError ∨ e = .cancelledError) ∧
                m = reply r.id 0x07 []) ∨
             (∃ e, f.st = .finished (.raised e) ∧ e ≠ .timeoutError ∧ e ≠ .cancelledError ∧ e ≠ .stopIteration ∧
                m = reply r.id 0x03 []) ∨
             (∃ c, f.st = .finished (.ret (.bytes c)) ∧ c ≠ [] ∧ m = reply r.id 0x00 c))) →
        match serviceOf r.header, methodOf r.header with
        | some sname, some mname =>
          ∃ (g : Registry) (h0 h : Heap) (fresh : PyStr) (ctx : Baggage), t.ran = some g ∧
            extract h0 fresh r.header = .ok (h, ctx) ∧
            match lookup svc g h ctx sname mname with
            | .refused st => m = reply r.id st.code []
            | .found func => ∃ (k : Nat) (f : Fut), t.fut = some k ∧ (lrun svc reg evs).futs[k]? = some f ∧
                f.func = func ∧ f.body = r.body ∧
                ((∃ t0, t.started = some t0 ∧ r.timeout > 0 ∧ t0 + r.timeout ≤ (lrun svc reg evs).now ∧
                    m = reply r.id 0x07 []) ∨
                 (∃ e, f.st = .finished (.raised e) ∧ (e = .timeoutError ∨ e = .cancelledError) ∧
                    m = reply r.id 0x07 []) ∨
                 (∃ e, f.st = .finished (.raised e) ∧ e ≠ .timeoutError ∧ e ≠ .cancelledError ∧ e ≠ .stopIteration ∧
                    m = reply r.id 0x03 []) ∨
                 (∃ c, f.st = .finished (.ret (.bytes c)) ∧ c ≠ [] ∧ m = reply r.id 0x00 c))
        | _, _ => m = reply r.id 0x08 [] := by
      intro k hk' hyp
      obtain ⟨f, sname, mname, g, h0, fresh, e1, e2, e3, e4, e5, e6, e7, -⟩ := hfut k hk'
      rw [e3, e4]
      dsimp only
      refine ⟨g, h0, f.heap, fresh, f.ctx, e6, e5, ?_⟩
      rw [(findMethod_lookup svc g f.heap f.ctx sname mname).1 _ e7]
      exact ⟨k, f, hk', e1, rfl, e2, hyp f e1⟩
    cases f with
    | badName =>
      cases ho
      rcases hfo.1 with hx | hx
      · rw [hx]
      · rw [hx]; split
        · next e => cases e
        · rfl
    | badCarrier => cases ho
    | notFound =>
      cases ho
      obtain ⟨-, sname, mname, g, h0, fresh, hh, ctx, e1, e2, e3, e4, e5⟩ := hfo
      rw [e1, e2]
      dsimp only
      refine ⟨g, h0, hh, fresh, ctx, e4, e3, ?_⟩
      rw [(findMethod_lookup svc g hh ctx sname mname).2.1 e5]
      rfl
    | failed e =>
      cases ho
      obtain ⟨-, he, sname, mname, g, h0, fresh, hh, ctx, e1, e2, e3, e4, e5⟩ := hfo
      rw [e1, e2]
      dsimp only
      refine ⟨g, h0, hh, fresh, ctx, e4, e3, ?_⟩
      rw [(findMethod_lookup svc g hh ctx sname mname).2.2 e he e5]
      rfl
    | accepted => cases ho
    | expired =>
      cases ho
      obtain ⟨-, hx, hpos, t0, e1, e2⟩ := hfo
      obtain ⟨k, hk'⟩ := Option.isSome_iff_exists.1 hx
      exact sub k hk' fun f _ => .inl ⟨t0, e1, hpos, e2, rfl⟩
    | answered o =>
      obtain ⟨⟨-, hstop⟩, k, f, e1, e2, e3⟩ := hfo
      refine sub k e1 ?_
      intro f' hf'
      rw [e2] at hf'
      cases hf'
      right
      cases o with
      | raised e =>
        by_cases h1 : e = .timeoutError
        · subst h1; cases ho; exact .inl ⟨_, e3, .inl rfl, rfl⟩
        · by_cases h2 : e = .cancelledError
          · subst h2; cases ho; exact .inl ⟨_, e3, .inr rfl, rfl⟩
          · right; left
            refine ⟨e, e3, h1, h2, fun h3 => hstop (by rw [h3]), ?_⟩
            cases e <;> first | exact absurd rfl h1 | exact absurd rfl h2 | (cases ho; rfl)
      | ret v =>
        cases v with
        | bytes c =>
          simp only [owed] at ho
          split at ho
          · next hc => cases ho; exact .inr (.inr ⟨c, e3, hc.1, rfl⟩)
          · cases ho
        | _ => cases ho

/-! ## C75 -/

/-- C75. However many requests are in progress and in whatever order they complete: a SUCCESS response (not a
heartbeat acknowledgement) with some id carries the bytes returned by a call that was submitted, with the method and
the body of the request, for a request with that id; and no other request shares that call. -/
theorem C75_own_result (svc : Services) (reg : Registry) (evs : List LEv) (o : Origin) (m : Bytes) (p : Pkg)
    (hm : (o, m) ∈ (lrun svc reg evs).out) (hp : fromStream .boltResponse m = .ok p) (hs : p.respstatus = .success)
    (hc : p.cmdcode = .response) :
    ∃ (j : Nat) (t : Task) (r : Req) (k : Nat) (f : Fut) (c : Bytes), o = .task j ∧
      (lrun svc reg evs).tasks[j]? = some t ∧ t.kind = .dispatch r ∧ p.requestId = .int r.id ∧ t.fut = some k ∧
      (lrun svc reg evs).futs[k]? = some f ∧ f.st = .finished (.ret (.bytes c)) ∧ p.content = .bytes c ∧
      f.body = r.body ∧
      (∃ (sname mname : PyStr) (g : Registry), serviceOf r.header = some sname ∧ methodOf r.header = some mname ∧
        lookup svc g f.heap f.ctx sname mname = .found f.func) ∧
      ∀ (j' : Nat) (t' : Task), (lrun svc reg evs).tasks[j']? = some t' → t'.fut = some k → j' = j := by
  have h := LInv.run svc reg evs
  have n : ([] : Bytes).length < 4294967296 := by decide
  cases o with
  | reader i =>
    exfalso
    obtain ⟨a, ha, hr, -⟩ := h.outReader i m hm
    have ham := List.mem_of_getElem? ha
    have hbad : ∀ (id : Int) (st : RespStatus), IdOk id → st ≠ .success → m = reply id st.code [] → False := by
      intro id st hid hst e
      obtain ⟨q, h1, -, h3, -⟩ := reply_decodes id st [] hid n
      rw [← e, hp] at h1
      cases h1
      exact hst (h3.symm.trans hs)
    have hacts : ∀ a ∈ (lrun svc reg evs).acts, (∀ id st, a = .reject id st → st ≠ .success) ∧
        (∀ id st, a = .close id st → st ≠ .success) := by
      have onE : ∀ e l, (∀ id st, onError e l = .reject id st → st ≠ .success) ∧
          (∀ id st, onError e l = .close id st → st ≠ .success) := by
        intro e l
        unfold onError
        refine ⟨?_, ?_⟩ <;> intro id st he <;> (repeat' split at he) <;> cases he <;> decide
      have hF : ∀ hh cn d b, (∀ id st, handleFrame hh cn d b = .reject id st → st ≠ .success) ∧
          (∀ id st, handleFrame hh cn d b = .close id st → st ≠ .success) := by
        intro hh cn d b
        unfold handleFrame
        split
        · exact ⟨(by intro _ _ h; cases h), (by intro _ _ h; cases h)⟩
        · split
          · exact onE _ _
          · split
            · exact onE _ _
            · exact ⟨(by intro _ _ h; cases h), (by intro _ _ h; cases h)⟩
      have hI : ∀ {r r' : ReadSt} {b b' : Bytes} {a : Act}, readerIter r b false = some (r', b', some a) →
          (∀ id st, a = .reject id st → st ≠ .success) ∧ (∀ id st, a = .close id st → st ≠ .success) := by
        intro r r' b b' a hi
        unfold readerIter at hi
        split at hi
        all_goals
          first
          | (cases hi; done)
          | (first | dsimp only at hi | skip
             split at hi
             · first
               | (cases hi; done)
               | (cases hi; exact onE _ _)
               | (cases hi; exact hF _ _ _ _)
               | (split at hi <;> first | (cases hi; done) | (cases hi; exact onE _ _))
             · cases hi)
      have hR : ∀ {r r' : ReadSt} {b b' : Bytes} {l : List Act}, RSteps r b l r' b' → ∀ a ∈ l,
          (∀ id st, a = .reject id st → st ≠ .success) ∧ (∀ id st, a = .close id st → st ≠ .success) := by
        intro r r' b b' l hl
        induction hl with
        | refl => intro a ha; cases ha
        | step hi t ih =>
          intro a ha
          rw [List.mem_append] at ha
          rcases ha with ha | ha
          · rw [Option.mem_toList] at ha
            subst ha
            exact hI hi
          · exact ih a ha
      obtain ⟨l, rd, hs, hcs⟩ := ReadInv.run svc reg evs
      rcases hcs with ⟨e, -⟩ | ⟨-, e, -⟩ | ⟨-, -, -, -, e⟩
      · rw [e]; exact hR hs
      · rw [e]; exact hR hs
      · rw [e]
        intro a ha
        rw [List.mem_append] at ha
        rcases ha with ha | ha
        · exact hR hs a ha
        · simp only [List.mem_singleton] at ha
          subst ha
          exact ⟨(by intro _ _ h; cases h), (by intro _ _ h; cases h; decide)⟩
    cases a with
    | reject id st =>
      simp only [actReply, Option.some.injEq] at hr
      exact hbad id st (h.actsOk _ ham id rfl) ((hacts _ ham).1 id st rfl) hr.symm
    | close id st =>
      cases id with
      | none => cases hr
      | some id =>
        simp only [actReply, Option.some.injEq] at hr
        exact hbad id st (h.actsOk _ ham id rfl) ((hacts _ ham).2 _ st rfl) hr.symm
    | _ => cases hr
  | task j =>
    obtain ⟨t, ht, -, hr⟩ := h.outTask j m hm
    obtain ⟨a, ham, -, hid⟩ := task_act h ht
    have hok := h.actsOk a ham _ hid
    have htk := h.task j t ht
    unfold TaskOk at htk
    cases hk : t.kind with
    | heartbeat id =>
      exfalso
      rw [hk] at hok
      simp only [taskReply, hk, Option.some.injEq] at hr
      obtain ⟨q, h1, -, -, -, h5, -⟩ := ack_decodes id hok
      rw [hr, hp] at h1
      cases h1
      rw [hc] at h5
      cases h5
    | dispatch r =>
      rw [hk] at htk hok
      obtain ⟨-, hfate, hfut⟩ := htk
      simp only [taskReply, hk] at hr
      cases hf : t.fate with
      | none => rw [hf] at hr; cases hr
      | some f =>
        rw [hf] at hr
        have ho : owed r.id f = some m := hr
        have hno : ∀ st : RespStatus, st ≠ .success → m = reply r.id st.code [] → False := by
          intro st hst e
          obtain ⟨q, h1, -, h3, -⟩ := reply_decodes r.id st [] hok n
          rw [← e, hp] at h1
          cases h1
          exact hst (h3.symm.trans hs)
        cases f with
        | badName => cases ho; exact (hno .clientSendError (by decide) rfl).elim
        | badCarrier => cases ho
        | notFound => cases ho; exact (hno .noProcessor (by decide) rfl).elim
        | failed e => cases ho; exact (hno .serverException (by decide) rfl).elim
        | accepted => cases ho
        | expired => cases ho; exact (hno .timeout (by decide) rfl).elim
        | answered o =>
          obtain ⟨-, k, f, e1, e2, e3⟩ := hfate _ hf
          cases o with
          | raised e =>
            exfalso
            by_cases h1 : e = .timeoutError
            · subst h1; cases ho; exact hno .timeout (by decide) rfl
            · by_cases h2 : e = .cancelledError
              · subst h2; cases ho; exact hno .timeout (by decide) rfl
              · have : m = reply r.id 3 [] := by
                  cases e <;> first | exact absurd rfl h1 | exact absurd rfl h2 | (cases ho; rfl)
                exact hno .unknown (by decide) this
          | ret v =>
            cases v with
            | bytes c =>
              simp only [owed] at ho
              split at ho
              · next hcc =>
                cases ho
                obtain ⟨q, h1, h2, -, h4, -⟩ := reply_decodes r.id .success c hok hcc.2
                have h1' : fromStream .boltResponse (reply r.id 0 c) = .ok q := h1
                rw [hp] at h1'
                cases h1'
                obtain ⟨f', sname, mname, g, h0, fresh, g1, g2, g3, g4, g5, g6, g7, -⟩ := hfut k e1
                rw [e2] at g1
                cases g1
                refine ⟨j, t, r, k, f, c, rfl, ht, hk, h2, e1, e2, e3, h4, g2, ⟨sname, mname, g, g3, g4, ?_⟩, ?_⟩
                · exact (findMethod_lookup svc g f.heap f.ctx sname mname).1 _ g7
                · intro j' t' ht' hk'
                  exact h.futInj j' j t' t k ht' ht hk' e1
              · cases ho
            | _ => cases ho

set_option maxRecDepth 20000 in
/-- two requests in progress, completing in reverse order -/
example : let evs : List LEv := .data exTwo :: List.replicate 8 .reader ++ [.run 0 (py "t"), .run 1 (py "u"),
      .futStart 0, .futStart 1, .futFinish 1 (.ret (.bytes [44])), .result 1, .write 1,
      .futFinish 0 (.ret (.bytes [33])), .result 0, .write 0]
    let s := lrun exServices exReg evs
    s.out = [(.task 1, reply 4 0 [44]), (.task 0, reply 3 0 [33])] ∧ s.settled := by
  decide +kernel

/-! ## C76 -/

/-- a task's kind, and its fate once decided, do not change -/
theorem fate_stable {svc : Services} {s : LSt} (h : LInv svc s) (ev : LEv) {j : Nat} {t : Task} {f : Fate}
    (ht : s.tasks[j]? = some t) (hf : t.fate = some f) :
    ∃ t' : Task, (lstep svc s ev).tasks[j]? = some t' ∧ t'.kind = t.kind ∧ t'.fate = some f ∧ t'.fut = t.fut := by
  have same : ∃ t' : Task, s.tasks[j]? = some t' ∧ t'.kind = t.kind ∧ t'.fate = some f ∧ t'.fut = t.fut :=
    ⟨t, ht, rfl, hf, rfl⟩
  -- a task whose fate is open is another one
  have other : ∀ (i : Nat) (u : Task), s.tasks[i]? = some u → u.fate = none → i ≠ j := by
    rintro i u hi hu rfl
    rw [ht] at hi; cases hi; rw [hf] at hu; cases hu
  have other' : ∀ (i : Nat) (u x : Task), s.tasks[i]? = some u → u.fate = none →
      ∃ t' : Task, (s.tasks.set i x)[j]? = some t' ∧ t'.kind = t.kind ∧ t'.fate = some f ∧ t'.fut = t.fut := by
    intro i u x hi hu
    exact ⟨t, by rw [List.getElem?_set_ne (other i u hi hu), ht], rfl, hf, rfl⟩
  have open' : ∀ (i : Nat) (u : Task) (r : Req), s.tasks[i]? = some u → u.kind = .dispatch r →
      (u.st = .new ∨ ∃ d, u.st = .waiting d) → u.fate = none := by
    intro i u r hi hk hst
    have := h.task i u hi
    unfold TaskOk at this
    rw [hk] at this
    rcases hst with e | ⟨d, e⟩
    · rw [e] at this; exact this.1.2
    · rw [e] at this; exact this.1.1
  have perf : ∀ (s' : LSt) (a : Act), s'.tasks = s.tasks →
      ∃ t' : Task, (s'.perform a).tasks[j]? = some t' ∧ t'.kind = t.kind ∧ t'.fate = some f ∧ t'.fut = t.fut := by
    intro s' a e
    have hlt := (List.getElem?_eq_some_iff.1 ht).1
    refine ⟨t, ?_, rfl, hf, rfl⟩
    unfold LSt.perform
    dsimp only
    split
    · dsimp only; rw [e, List.getElem?_append_left hlt, ht]
    · split
      · dsimp only; rw [e, List.getElem?_append_left hlt, ht]
      · dsimp only; rw [e, ht]
    · split <;> (dsimp only; rw [e, ht])
    · dsimp only; rw [e, ht]
    · dsimp only; rw [e, ht]
  cases ev with
  | data bs => simp only [lstep]; split <;> exact same
  | eof => exact same
  | reset => exact same
  | reader =>
    simp only [lstep]
    unfold LSt.reader
    split
    · split
      · exact same
      · exact same
      · exact perf _ _ rfl
    · simpa [LSt.write, apply_ite] using same
    · exact same
    · simpa [LSt.write, apply_ite] using same
  | run i fresh =>
    simp only [lstep]
    split
    · next u hi =>
      split
      · next r hst hk =>
        have hu := open' i u r hi hk (.inl hst)
        unfold LSt.dispatch
        split
        · exact other' i u _ hi hu
        · split
          · exact other' i u _ hi hu
          · split
            · exact other' i u _ hi hu
            · dsimp only
              split
              · exact other' i u _ hi hu
              · exact other' i u _ hi hu
              · split <;> exact other' i u _ hi hu
      · exact same
    · exact same
  | result i =>
    simp only [lstep]
    split
    · next u hi =>
      split
      · next d r k hst hk _ =>
        split
        · exact same
        · exact other' i u _ hi (open' i u r hi hk (.inr ⟨_, hst⟩))
        · exact same
      · exact same
    · exact same
  | expire i =>
    simp only [lstep]
    split
    · next u hi =>
      split
      · next d r k hst hk _ =>
        split
        · have := other' i u ⟨u.kind, toWrite (failMsg r.id .timeout), u.fut, some .expired, u.ran, u.started⟩ hi
            (open' i u r hi hk (.inr ⟨_, hst⟩))
          unfold LSt.setTask LSt.cancelFut
          split <;> exact this
        · exact same
      · exact same
    · exact same
  | write i =>
    simp only [lstep]
    split
    · next u hi =>
      split
      · by_cases hij : i = j
        · subst hij
          rw [ht] at hi
          cases hi
          have hlt := (List.getElem?_eq_some_iff.1 ht).1
          refine ⟨⟨t.kind, .ended, t.fut, t.fate, t.ran, t.started⟩, ?_, rfl, hf, rfl⟩
          unfold LSt.setTask LSt.write
          split <;> (dsimp only; rw [List.getElem?_set_self hlt])
        · refine ⟨t, ?_, rfl, hf, rfl⟩
          unfold LSt.setTask LSt.write
          split <;> (dsimp only; rw [List.getElem?_set_ne hij, ht])
      · exact same
    · exact same
  | futStart k => simp only [lstep]; split <;> exact same
  | futFinish k o => simp only [lstep]; split <;> exact same
  | tick d => exact same
  | register r => exact same

theorem fate_stable_run {svc : Services} (evs : List LEv) : ∀ {s : LSt}, LInv svc s → ∀ {j : Nat} {t : Task} {f : Fate},
    s.tasks[j]? = some t → t.fate = some f →
    ∃ t' : Task, (evs.foldl (lstep svc) s).tasks[j]? = some t' ∧ t'.kind = t.kind ∧ t'.fate = some f ∧ t'.fut = t.fut := by
  induction evs with
  | nil => intro s _ j t f ht hf; exact ⟨t, ht, rfl, hf, rfl⟩
  | cons e evs ih =>
    intro s h j t f ht hf
    obtain ⟨t1, h1, h2, h3, h4⟩ := fate_stable h e ht hf
    obtain ⟨t2, g1, g2, g3, g4⟩ := ih (h.step e) h1 h3
    exact ⟨t2, g1, g2.trans h2, g3, g4.trans h4⟩

theorem lrun_append (svc : Services) (reg : Registry) (evs evs' : List LEv) :
    lrun svc reg (evs ++ evs') = evs'.foldl (lstep svc) (lrun svc reg evs) := by
  unfold lrun; rw [List.foldl_append]

/-- C76, first part: a request without a positive timeout is answered TIMEOUT only if its own call raised a
TimeoutError or CancelledError; one with a positive timeout otherwise only if at least that time has passed since its
call was submitted. -/
theorem C76_timeout_only_when_due (svc : Services) (reg : Registry) (evs : List LEv) (j : Nat) (t : Task) (r : Req)
    (ht : (lrun svc reg evs).tasks[j]? = some t) (hk : t.kind = .dispatch r)
    (hm : (Origin.task j, reply r.id 0x07 []) ∈ (lrun svc reg evs).out) :
    (∃ (k : Nat) (f : Fut) (e : PyExc), t.fut = some k ∧ (lrun svc reg evs).futs[k]? = some f ∧
        f.st = .finished (.raised e) ∧ (e = .timeoutError ∨ e = .cancelledError)) ∨
      (r.timeout > 0 ∧ ∃ t0, t.started = some t0 ∧ t0 + r.timeout ≤ (lrun svc reg evs).now) := by
  have h := LInv.run svc reg evs
  obtain ⟨a, ham, -, hid⟩ := task_act h ht
  have hok := h.actsOk a ham _ hid
  rw [hk] at hok
  have n : ([] : Bytes).length < 4294967296 := by decide
  have hC := C74_status svc reg evs j t r _ ht hk hm
  have hne : ∀ st : RespStatus, st ≠ .timeout → reply r.id 7 [] ≠ reply r.id st.code [] := by
    intro st hst e
    exact hst (reply_inj (st := .timeout) hok hok n n e).2.1.symm
  split at hC
  · obtain ⟨g, h0, hh, fresh, ctx, -, -, hC⟩ := hC
    split at hC
    · next st hl =>
      exfalso
      refine hne st ?_ hC
      rintro rfl
      unfold lookup at hl
      split at hl
      · cases hl
      · split at hl
        · injection hl with hl; split at hl <;> cases hl
        · split at hl
          · injection hl with hl; split at hl <;> cases hl
          · cases hl
    · obtain ⟨k, f, h1, h2, -, -, h3⟩ := hC
      rcases h3 with ⟨t0, e1, e2, e3, -⟩ | ⟨e, e1, e2, -⟩ | ⟨e, -, -, -, e2⟩ | ⟨c, e1, hc, e2⟩
      · exact .inr ⟨e2, t0, e1, e3⟩
      · exact .inl ⟨k, f, e, h1, h2, e1, e2⟩
      · exact absurd e2.2 (hne .unknown (by decide))
      · exfalso
        by_cases hcl : c.length < 4294967296
        · have := (reply_inj (st := .timeout) (st' := .success) hok hok n hcl e2).2.1
          cases this
        · have e3 := congrArg List.length e2
          simp only [reply, frame_length] at e3
          have : c.length = 0 := by simp at e3; simp [e3]
          omega
  · exact absurd hC (hne .clientSendError (by decide))

/-- C76, second part: if the deadline of a request has come and its call has not been reported, `wait_for` can
expire; and then, whatever happens afterwards, whether or not its call completes: nothing but TIMEOUT is written for
it, at most once, and exactly once when everything has settled on an open connection. The late result is discarded. -/
theorem C76_late_result_discarded (svc : Services) (reg : Registry) (evs evs' : List LEv) (j : Nat) (t : Task)
    (r : Req) (t0 : Int) (d : Option Int) (ht : (lrun svc reg evs).tasks[j]? = some t) (hk : t.kind = .dispatch r)
    (hst : t.st = .waiting d) (hpos : r.timeout > 0) (h0 : t.started = some t0)
    (hdue : t0 + r.timeout ≤ (lrun svc reg evs).now) :
    (∀ m, (Origin.task j, m) ∈ (lrun svc reg (evs ++ .expire j :: evs')).out → m = reply r.id 0x07 []) ∧
    ((lrun svc reg (evs ++ .expire j :: evs')).settled → (lrun svc reg (evs ++ .expire j :: evs')).closed = false →
      (lrun svc reg (evs ++ .expire j :: evs')).out.filter (fun x => x.1 = .task j) =
        [(.task j, reply r.id 0x07 [])]) := by
  have h := LInv.run svc reg evs
  have htk := h.task j t ht
  unfold TaskOk at htk
  rw [hk, hst] at htk
  obtain ⟨⟨-, -, hfs, hd⟩, -, -⟩ := htk
  obtain ⟨k, hfk⟩ := Option.isSome_iff_exists.1 hfs
  rw [if_pos hpos, h0] at hd
  have hlt := (List.getElem?_eq_some_iff.1 ht).1
  have h1 : ∃ t' : Task, (lstep svc (lrun svc reg evs) (.expire j)).tasks[j]? = some t' ∧ t'.kind = .dispatch r ∧
      t'.fate = some .expired := by
    refine ⟨⟨t.kind, toWrite (failMsg r.id .timeout), t.fut, some .expired, t.ran, t.started⟩, ?_, hk, rfl⟩
    simp only [lstep, ht, hst, hd, hk, hfk, Option.map_some]
    rw [if_pos hdue]
    unfold LSt.setTask LSt.cancelFut
    split <;> (dsimp only [LSt.setFut]; rw [List.getElem?_set_self hlt])
  obtain ⟨t1, e1, e2, e3⟩ := h1
  obtain ⟨t2, f1, f2, f3, -⟩ := fate_stable_run evs' (h.step (.expire j)) e1 e3
  have hrun : lrun svc reg (evs ++ .expire j :: evs') =
      evs'.foldl (lstep svc) (lstep svc (lrun svc reg evs) (.expire j)) := by
    rw [lrun_append]; rfl
  rw [← hrun] at f1
  have hr2 : taskReply t2 = some (reply r.id 0x07 []) := by
    simp [taskReply, f2, e2, f3, owed]
  have h' := LInv.run svc reg (evs ++ .expire j :: evs')
  constructor
  · intro m hm
    obtain ⟨t3, g1, -, g2⟩ := h'.outTask j m hm
    rw [f1] at g1
    cases g1
    rw [hr2] at g2
    cases g2
    rfl
  · intro hs hc
    rw [task_written h' hs hc f1, hr2]

set_option maxRecDepth 20000 in
/-- the call completes after the deadline -/
example : let pre : List LEv := [.data (exReq 3 [1]).bytes, .reader, .reader, .reader, .reader, .run 0 (py "t"),
      .futStart 0, .tick 100]
    let s := lrun exServices exReg pre
    s.tasks.map (fun t => (t.st, t.started)) = [(.waiting (some 100), some 0)] ∧ s.now = 100 ∧
    (lrun exServices exReg (pre ++ .expire 0 :: [.futFinish 0 (.ret (.bytes [7])), .result 0, .write 0])).wire =
      reply 3 7 [] := by
  decide +kernel

end Bolt
