import Verif.Props.AioServer
import Verif.Props.ListenerReplies
import Verif.Lemmas.Rest
/-!
# C184: methods that do not return hold up nothing but their own results
-/
namespace Bolt
open Spec

/-- steps that the event loop makes by itself: the reader goes on, a task starts, its time is up, it writes. No thread of the
executor is involved, and nothing comes from the peer. -/
def Spec.loopOwn : LEv → Bool
  | .reader | .run _ _ | .expire _ | .write _ => true
  | _ => false

/-- such steps of any connection, and time -/
def Spec.loopOnly : SrvEv → Bool
  | .conn _ e => loopOwn e
  | .tick _ => true
  | _ => false

/-- all that is left to wait for: bytes of the peer, and methods of calls without a timeout -/
def Spec.AtEase (s : LSt) : Prop := s.idle ∧ ∀ t ∈ s.tasks, t.st = .ended ∨ t.st = .waiting none

/-- one connection gets nearer to being at ease -/
def LSt.Nearer (s s' : LSt) : Prop :=
  s'.readRank 0 < s.readRank 0 ∨ (s'.readRank 0 = s.readRank 0 ∧ s'.workRank < s.workRank)

theorem tick_ranks (svc : Services) (s : LSt) (d : Nat) :
    (lstep svc s (.tick d)).readRank 0 = s.readRank 0 ∧ (lstep svc s (.tick d)).workRank = s.workRank := ⟨rfl, rfl⟩

/-- a connection that is not at ease can get nearer by itself, after some time -/
theorem ease_step {svc : Services} {s : LSt} (h : LInv svc s) (hn : ¬ AtEase s) :
    ∃ (d : Nat) (e : LEv), loopOwn e = true ∧ s.Nearer (lstep svc (lstep svc s (.tick d)) e) := by
  have work : ∀ (d : Nat) (e : LEv), (lstep svc s (.tick d)).tasks = s.tasks →
      ((∃ i fresh, e = .run i fresh) ∨ (∃ i, e = .expire i) ∨ ∃ i, e = .write i) →
      lstep svc (lstep svc s (.tick d)) e ≠ lstep svc s (.tick d) → s.Nearer (lstep svc (lstep svc s (.tick d)) e) := by
    intro d e _ he hne
    rcases work_rank svc (lstep svc s (.tick d)) e
      (by rcases he with h | h | h <;> simp [h]) with h1 | ⟨h1, h2⟩
    · exact absurd h1 hne
    · exact .inr ⟨h1.rank 0, h2⟩
  have changed : ∀ {s1 s2 : LSt} (i : Nat) (t u : Task), s1.tasks[i]? = some t → s2.tasks[i]? = some u → u.st ≠ t.st → s2 ≠ s1 := by
    intro s1 s2 i t u h1 h2 h3 e
    rw [e, h1] at h2
    cases h2
    exact h3 rfl
  by_cases hi : s.idle
  · have : ∃ t ∈ s.tasks, ¬ (t.st = .ended ∨ t.st = .waiting none) := by
      apply Classical.byContradiction
      intro hx
      apply hn
      refine ⟨hi, fun t ht => ?_⟩
      apply Classical.byContradiction
      intro hy
      exact hx ⟨t, ht, hy⟩
    obtain ⟨t, htm, hts⟩ := this
    obtain ⟨i, ht⟩ := List.getElem?_of_mem htm
    have hlt := (List.getElem?_eq_some_iff.1 ht).1
    have hok := h.task i t ht
    cases hst : t.st with
    | ended => exact absurd (.inl hst) hts
    | new =>
      cases hk : t.kind with
      | heartbeat id =>
        unfold TaskOk at hok
        rw [hk] at hok
        rcases hok.2 with h1 | h1 <;> (rw [hst] at h1; cases h1)
      | dispatch r =>
        refine ⟨0, .run i [], rfl, .inr ?_⟩
        have e : lstep svc (lstep svc s (.tick 0)) (.run i []) = (lstep svc s (.tick 0)).dispatch svc i t r [] := by
          have ht' : (lstep svc s (.tick 0)).tasks[i]? = some t := ht
          simp only [lstep] at ht' ⊢
          rw [ht']
          simp only [hst, hk]
        rw [e]
        obtain ⟨h1, h2⟩ := dispatch_rank svc (lstep svc s (.tick 0)) r [] (i := i) (t := t) ht hst
        exact ⟨h1.rank 0, h2⟩
    | writing m =>
      refine ⟨0, .write i, rfl, work 0 _ rfl (.inr (.inr ⟨i, rfl⟩)) ?_⟩
      have ht' : (lstep svc s (.tick 0)).tasks[i]? = some t := ht
      refine changed i t { t with st := .ended } ht' ?_ (by rw [hst]; intro h; cases h)
      have e : lstep svc (lstep svc s (.tick 0)) (.write i) =
          ((lstep svc s (.tick 0)).write (.task i) m).setTask i { t with st := .ended } := by
        show (match (lstep svc s (.tick 0)).tasks[i]? with | some t => _ | none => _) = _
        rw [ht']
        simp only [hst]
      rw [e]
      have e1 : ((lstep svc s (.tick 0)).write (.task i) m).tasks = s.tasks := by unfold LSt.write; split <;> rfl
      show (((lstep svc s (.tick 0)).write (.task i) m).tasks.set i _)[i]? = _
      rw [e1, List.getElem?_set_self hlt]
    | waiting d =>
      cases d with
      | none => exact absurd (.inr hst) hts
      | some d =>
        unfold TaskOk at hok
        cases hk : t.kind with
        | heartbeat id =>
          rw [hk] at hok
          rcases hok.2 with h1 | h1 <;> (rw [hst] at h1; cases h1)
        | dispatch r =>
          rw [hk] at hok
          dsimp only at hok
          rw [hst] at hok
          obtain ⟨k, hf⟩ := Option.isSome_iff_exists.1 hok.1.2.2.1
          refine ⟨(d - s.now).toNat, .expire i, rfl, work _ _ rfl (.inr (.inl ⟨i, rfl⟩)) ?_⟩
          have ht' : (lstep svc s (.tick (d - s.now).toNat)).tasks[i]? = some t := ht
          have hnow : d ≤ (lstep svc s (.tick (d - s.now).toNat)).now := by
            show d ≤ s.now + ((d - s.now).toNat : Int)
            omega
          have e : lstep svc (lstep svc s (.tick (d - s.now).toNat)) (.expire i) =
              ((lstep svc s (.tick (d - s.now).toNat)).cancelFut k).setTask i
                { t with st := toWrite (failMsg r.id .timeout), fate := some .expired } := by
            show (match (lstep svc s (.tick (d - s.now).toNat)).tasks[i]? with | some t => _ | none => _) = _
            rw [ht']
            simp only [hst, hk, hf]
            rw [if_pos hnow]
          rw [e]
          refine changed i t { t with st := toWrite (failMsg r.id .timeout), fate := some .expired } ht' ?_ ?_
          · have e1 : ((lstep svc s (.tick (d - s.now).toNat)).cancelFut k).tasks = s.tasks := by
              unfold LSt.cancelFut
              split <;> rfl
            show (((lstep svc s (.tick (d - s.now).toNat)).cancelFut k).tasks.set i _)[i]? = _
            rw [e1, List.getElem?_set_self hlt]
          · rw [hst]
            dsimp only
            unfold toWrite
            split <;> exact fun h => (by cases h)
  · refine ⟨0, .reader, rfl, .inl ?_⟩
    have hi' : ¬ (lstep svc s (.tick 0)).idle := hi
    rcases idle_or_rank (lstep svc s (.tick 0)) with h1 | h1
    · exact absurd h1 hi'
    · exact h1 0

/-! ## All connections -/

theorem sumBy_map_same {α : Type} (f : α → Nat) (g : α → α) (h : ∀ x, f (g x) = f x) (l : List α) :
    sumBy f (l.map g) = sumBy f l := by
  unfold sumBy
  rw [List.map_map]
  congr 1
  exact List.map_congr_left fun x _ => h x

/-- C184 (nothing but methods has to be waited for). From every state of a listener, whatever the threads of its executor are
doing and however long the queue is, the event loop comes by itself, without any thread starting or ending a method, to
a state in which each connection waits only for bytes of its peer and for methods of calls without a timeout. -/
theorem C184_comes_to_ease (svc : Services) (reg : Registry) (evs : List SrvEv) :
    ∃ evs' : List SrvEv, (∀ e ∈ evs', loopOnly e = true) ∧
      (srvRun svc reg (evs ++ evs')).running = (srvRun svc reg evs).running ∧
      ∀ l ∈ (srvRun svc reg (evs ++ evs')).conns, AtEase l := by
  have key : ∀ (m : Nat × Nat) (es : List SrvEv),
      (sumBy (LSt.readRank 0) (srvRun svc reg es).conns, sumBy LSt.workRank (srvRun svc reg es).conns) = m →
      ∃ evs' : List SrvEv, (∀ e ∈ evs', loopOnly e = true) ∧
        (srvRun svc reg (es ++ evs')).running = (srvRun svc reg es).running ∧
        ∀ l ∈ (srvRun svc reg (es ++ evs')).conns, AtEase l := by
    intro m
    induction m using (Prod.lex Nat.lt_wfRel Nat.lt_wfRel).wf.induction with
    | _ m ih =>
      intro es hm
      by_cases hall : ∀ l ∈ (srvRun svc reg es).conns, AtEase l
      · exact ⟨[], fun e he => (by cases he), by rw [List.append_nil], by rw [List.append_nil]; exact hall⟩
      · have : ∃ l ∈ (srvRun svc reg es).conns, ¬ AtEase l := by
          apply Classical.byContradiction
          intro hx
          apply hall
          intro l hl
          apply Classical.byContradiction
          intro hy
          exact hx ⟨l, hl, hy⟩
        obtain ⟨l, hl, hne⟩ := this
        obtain ⟨c, hc⟩ := List.getElem?_of_mem hl
        obtain ⟨les, hle, -⟩ := C104_alone svc reg es c l hc
        have hinv : LInv svc l := by rw [hle]; exact LInv.run svc _ les
        obtain ⟨d, e, he, hnear⟩ := ease_step hinv hne
        have hloc : e.isLocal = true := by cases e <;> first | rfl | cases he
        -- the two steps
        have e1 : srvRun svc reg (es ++ [.tick d]) =
            { srvRun svc reg es with conns := (srvRun svc reg es).conns.map fun l => lstep svc l (.tick d) } := by
          rw [srvRun_snoc]; rfl
        have hc1 : (srvRun svc reg (es ++ [.tick d])).conns[c]? = some (lstep svc l (.tick d)) := by
          rw [e1]
          show (List.map _ _)[c]? = _
          rw [List.getElem?_map, hc]
          rfl
        have e2 : (srvRun svc reg (es ++ [.tick d] ++ [.conn c e])).conns =
            (srvRun svc reg (es ++ [.tick d])).conns.set c (lstep svc (lstep svc l (.tick d)) e) ∧
            (srvRun svc reg (es ++ [.tick d] ++ [.conn c e])).running = (srvRun svc reg es).running := by
          rw [srvRun_snoc]
          unfold srvStep
          dsimp only
          rw [if_pos hloc, hc1]
          dsimp only
          exact ⟨rfl, by rw [e1]⟩
        have r1 : sumBy (LSt.readRank 0) (srvRun svc reg (es ++ [.tick d])).conns = sumBy (LSt.readRank 0) (srvRun svc reg es).conns := by
          rw [e1]; exact sumBy_map_same _ (fun l => lstep svc l (.tick d)) (fun _ => rfl) _
        have w1 : sumBy LSt.workRank (srvRun svc reg (es ++ [.tick d])).conns = sumBy LSt.workRank (srvRun svc reg es).conns := by
          rw [e1]; exact sumBy_map_same _ (fun l => lstep svc l (.tick d)) (fun _ => rfl) _
        have r2 := sumBy_set (LSt.readRank 0) (lstep svc (lstep svc l (.tick d)) e) hc1
        have w2 := sumBy_set LSt.workRank (lstep svc (lstep svc l (.tick d)) e) hc1
        rw [← e2.1, r1, (tick_ranks svc l d).1] at r2
        rw [← e2.1, w1, (tick_ranks svc l d).2] at w2
        obtain ⟨evs', h1, h2, h3⟩ := ih _ (by
          subst hm
          rcases hnear with h | ⟨h, h'⟩
          · exact Prod.Lex.left _ _ (by show _ < _; omega)
          · have : sumBy (LSt.readRank 0) (srvRun svc reg (es ++ [.tick d] ++ [.conn c e])).conns =
                sumBy (LSt.readRank 0) (srvRun svc reg es).conns := by omega
            rw [← this]
            exact Prod.Lex.right _ (by show _ < _; omega)) (es ++ [.tick d] ++ [.conn c e]) rfl
        refine ⟨[.tick d, .conn c e] ++ evs', ?_, ?_, ?_⟩
        · intro x hx
          simp only [List.cons_append, List.nil_append, List.mem_cons] at hx
          rcases hx with rfl | rfl | hx
          · rfl
          · exact he
          · exact h1 x hx
        · have : es ++ ([.tick d, .conn c e] ++ evs') = es ++ [.tick d] ++ [.conn c e] ++ evs' := by simp
          rw [this, h2, e2.2]
        · have : es ++ ([.tick d, .conn c e] ++ evs') = es ++ [.tick d] ++ [.conn c e] ++ evs' := by simp
          rw [this]
          exact h3
  exact key _ evs rfl

/-- C184 (what that means). On a connection at ease that is open, every message that is due has been written: the
acknowledgements of heartbeats, all refusals, the TIMEOUT answers, and the answers of methods that have ended. What is left
are two-way calls without a timeout whose method has been submitted. -/
theorem C184_answered (svc : Services) (reg : Registry) (evs : List SrvEv) (c : Nat) (l : LSt)
    (hl : (srvRun svc reg evs).conns[c]? = some l) (he : AtEase l) (ho : l.closed = false) :
    (∀ (n : Nat) (a : Act) (m : Bytes), l.acts[n]? = some a → actReply a = some m → (.reader n, m) ∈ l.out) ∧
    ∀ (i : Nat) (t : Task), l.tasks[i]? = some t →
      (t.st = .ended ∧ ∀ m, taskReply t = some m → (.task i, m) ∈ l.out) ∨
      ∃ (r : Req) (k : Nat), t.kind = .dispatch r ∧ t.fut = some k ∧ r.callType ≠ 2 ∧ r.timeout ≤ 0 := by
  obtain ⟨les, hle, -⟩ := C104_alone svc reg evs c l hl
  have h : LInv svc l := by rw [hle]; exact LInv.run svc _ les
  refine ⟨fun n a m ha hr => ?_, fun i t ht => ?_⟩
  · rcases h.readerOut n a m ha hr with hx | hx | ⟨-, hx⟩
    · rw [ho] at hx; cases hx
    · exact hx
    · exact absurd he.1.1 hx
  · rcases he.2 t (List.mem_of_getElem? ht) with hs | hs
    · refine .inl ⟨hs, fun m hr => ?_⟩
      rcases h.ended i t m ht hs hr with hx | hx
      · rw [ho] at hx; cases hx
      · exact hx
    · right
      have hok := h.task i t ht
      unfold TaskOk at hok
      cases hk : t.kind with
      | heartbeat id =>
        rw [hk] at hok
        rcases hok.2 with h1 | h1 <;> (rw [hs] at h1; cases h1)
      | dispatch r =>
        rw [hk] at hok
        dsimp only at hok
        rw [hs] at hok
        obtain ⟨-, h2, h3, h4⟩ := hok.1
        obtain ⟨k, hf⟩ := Option.isSome_iff_exists.1 h3
        refine ⟨r, k, rfl, hf, h2, ?_⟩
        apply Classical.byContradiction
        intro hpos
        rw [if_pos (by omega)] at h4
        obtain ⟨_, _, _, _, _, _, _, _, _, _, _, _, _, hst⟩ := hok.2.2 k hf
        obtain ⟨t0, ht0⟩ := Option.isSome_iff_exists.1 hst
        rw [ht0] at h4
        cases h4

/-- such steps do not change what a connection has received -/
theorem view_loop (c : Nat) (reg : Registry) (evs evs' : List SrvEv) (h : ∀ e ∈ evs', loopOnly e = true) :
    received (view c reg (evs ++ evs')).evs = received (view c reg evs).evs ∧
    sawEof (view c reg (evs ++ evs')).evs = sawEof (view c reg evs).evs ∧
    (.reset ∈ (view c reg (evs ++ evs')).evs → .reset ∈ (view c reg evs).evs) := by
  induction evs' using snoc_induct with
  | nil => rw [List.append_nil]; exact ⟨rfl, rfl, id⟩
  | snoc es e ih =>
    obtain ⟨h1, h2, h3⟩ := ih fun x hx => h x (by simp [hx])
    have he := h e (by simp)
    rw [← List.append_assoc, view_snoc]
    generalize view c reg (evs ++ es) = v at h1 h2 h3 ⊢
    have same : ∀ x : LEv, (loopOwn x = true ∨ ∃ d, x = .tick d) →
        received (v.evs ++ [x]) = received v.evs ∧ sawEof (v.evs ++ [x]) = sawEof v.evs ∧ (.reset ∈ v.evs ++ [x] → .reset ∈ v.evs) := by
      intro x hx
      refine ⟨?_, ?_, ?_⟩
      · have : ∀ l : List LEv, received (l ++ [x]) = received l := by
          intro l
          induction l with
          | nil => rcases hx with hx | ⟨d, rfl⟩ <;> first | rfl | (cases x <;> first | rfl | cases hx)
          | cons a l ih => cases a <;> first | exact ih | rfl | exact congrArg (_ ++ ·) ih
        exact this _
      · have hne : LEv.eof ≠ x := by
          rintro rfl
          rcases hx with hx | ⟨d, hx⟩ <;> cases hx
        unfold sawEof
        rw [Bool.eq_iff_iff, List.contains_iff_mem, List.contains_iff_mem, List.mem_append, List.mem_singleton]
        exact ⟨fun h => h.resolve_right hne, .inl⟩
      · intro hm
        rcases List.mem_append.1 hm with hm | hm
        · exact hm
        · have := List.mem_singleton.1 hm
          subst this
          rcases hx with hx | ⟨d, hx⟩ <;> cases hx
    cases e with
    | conn c' x =>
      unfold View.step
      dsimp only
      split
      · obtain ⟨a, b, d⟩ := same x (.inl he)
        exact ⟨by rw [a, h1], by rw [b, h2], fun hm => h3 (d hm)⟩
      · exact ⟨h1, h2, h3⟩
    | tick d =>
      unfold View.step
      dsimp only
      split
      · obtain ⟨a, b, d⟩ := same (.tick d) (.inr ⟨d, rfl⟩)
        exact ⟨by rw [a, h1], by rw [b, h2], fun hm => h3 (d hm)⟩
      · exact ⟨h1, h2, h3⟩
    | _ => cases he

/-- C184 (heartbeats). Whatever the executor is doing, and also when it never does anything again, the event loop comes to a
state in which, on every connection that has received whole frames with decodable headers and is not closed by its peer,
every heartbeat has been acknowledged exactly once. -/
theorem C184_heartbeats (svc : Services) (reg : Registry) (evs : List SrvEv) :
    ∃ evs' : List SrvEv, (∀ e ∈ evs', loopOnly e = true) ∧
      (srvRun svc reg (evs ++ evs')).running = (srvRun svc reg evs).running ∧
      ∀ (c : Nat) (l : LSt) (qs : List AnyFrame), (srvRun svc reg (evs ++ evs')).conns[c]? = some l → (∀ q ∈ qs, q.Ok) →
        received (view c reg evs).evs = framesBytes qs → sawEof (view c reg evs).evs = false → .reset ∉ (view c reg evs).evs →
        ∀ id : Int, IdOk id → (l.out.map Prod.snd).count (heartbeatAck id) =
          qs.countP fun q => q.f.cmdcode = 0 ∧ q.f.requestId = id := by
  obtain ⟨evs', h1, h2, h3⟩ := C184_comes_to_ease svc reg evs
  refine ⟨evs', h1, h2, ?_⟩
  intro c l qs hc hq hb he hn id hid
  have hease := h3 l (List.mem_of_getElem? hc)
  obtain ⟨v1, v2, v3⟩ := view_loop c reg evs evs' h1
  obtain ⟨les, rfl, hf⟩ := C104_alone svc reg (evs ++ evs') c l hc
  have g1 : received les = framesBytes qs := by rw [← received_filter, hf, v1, hb]
  have g2 : sawEof les = false := by rw [← sawEof_filter, hf, v2, he]
  have g3 : LEv.reset ∉ les := by
    intro hm
    apply hn
    apply v3
    rw [← hf]
    exact List.mem_filter.2 ⟨hm, rfl⟩
  exact (C70_heartbeats_partial svc _ les qs hq g1 g2 g3
    ⟨hease.1, fun t ht => (hease.2 t ht).elim .inl fun h => .inr ⟨_, h⟩⟩).1 id hid

set_option maxRecDepth 40000 in
/-- the thirty-one calls of `exStuck`, thirty of them running, and a heartbeat -/
example : ((srvRun exServices exReg (exStuck ++ [.conn 0 (.data (frame true ⟨1, 1, 0, 1, 99, 11, 100⟩ [] [] [])), .conn 0 .reader,
      .conn 0 .reader, .conn 0 .reader, .conn 0 .reader, .conn 0 (.write 31)])).conns.map fun l => l.out) =
        [[(.task 31, heartbeatAck 99)]] ∧
    (srvRun exServices exReg exStuck).running.length = 30 := by
  refine ⟨by decide +kernel, exStuck_run.2.1⟩

end Bolt
