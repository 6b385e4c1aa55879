import Verif.Model.HeartbeatTimer
import Verif.Props.EndToEndAio
import Verif.Props.AioFail
/-!
# C182: the heartbeats of a client
-/
namespace Bolt
open Spec

theorem beatRun_append (v : PyVer) (evs evs' : List BeatEv) : beatRun v (evs ++ evs') = evs'.foldl (beatStep v) (beatRun v evs) := by
  simp [beatRun, List.foldl_append]

theorem beatRun_snoc (v : PyVer) (evs : List BeatEv) (e : BeatEv) : beatRun v (evs ++ [e]) = beatStep v (beatRun v evs) e := by
  rw [beatRun_append]; rfl

/-- the client beside its timer is a client -/
theorem beatRun_cli (v : PyVer) (evs : List BeatEv) : (beatRun v evs).cli = arun v (beatRun v evs).log := by
  induction evs using snoc_induct with
  | nil => rfl
  | snoc evs e ih =>
    rw [beatRun_snoc]
    generalize beatRun v evs = s at ih ⊢
    cases e with
    | loop e => show astep v s.cli e = arun v (s.log ++ [e]); rw [arun_snoc, ih]
    | tick d => exact ih
    | beat id =>
      simp only [beatStep]
      split
      · split
        · split
          · exact ih
          · next p _ => show astep v s.cli (.call p) = arun v (s.log ++ [.call p]); rw [arun_snoc, ih]
        · exact ih
      · exact ih
    | look =>
      simp only [beatStep]
      repeat' split
      all_goals exact ih

/-- other coroutines submitted to the client are calls of its methods, too -/
def Spec.BeatMade (evs : List BeatEv) : Prop := ∀ p, BeatEv.loop (.call p) ∈ evs → AioMade p

theorem beatRun_made (v : PyVer) (evs : List BeatEv) (h : BeatMade evs) : ∀ p, AEv.call p ∈ (beatRun v evs).log → AioMade p := by
  induction evs using snoc_induct with
  | nil => intro p hp; cases hp
  | snoc evs e ih =>
    have ih := ih fun p hp => h p (List.mem_append_left _ hp)
    have he : ∀ p, e = .loop (.call p) → AioMade p := fun p hp => h p (by rw [hp]; simp)
    rw [beatRun_snoc]
    generalize beatRun v evs = s at ih ⊢
    intro p hp
    cases e with
    | loop e =>
      rcases List.mem_append.1 hp with hp | hp
      · exact ih p hp
      · rw [← List.mem_singleton.1 hp] at he
        exact he p rfl
    | tick d => exact ih p hp
    | beat id =>
      simp only [beatStep] at hp
      split at hp
      · split at hp
        · split at hp
          · exact ih p hp
          · next q hq =>
            rcases List.mem_append.1 hp with hp | hp
            · exact ih p hp
            · cases List.mem_singleton.1 hp
              exact .inr ⟨id, hq⟩
        · exact ih p hp
      · exact ih p hp
    | look =>
      simp only [beatStep] at hp
      repeat' split at hp
      all_goals exact ih p hp

/-- the calls in the list of heartbeats are heartbeats -/
theorem beatRun_beats (v : PyVer) (evs : List BeatEv) : ∀ b ∈ (beatRun v evs).beats,
    ∃ (c : ACall) (id : Int), (beatRun v evs).cli.calls[b.2]? = some c ∧ heartbeatRequest id = .ok c.req := by
  induction evs using snoc_induct with
  | nil => intro b hb; cases hb
  | snoc evs e ih =>
    have hcli := beatRun_cli v evs
    rw [beatRun_snoc]
    generalize beatRun v evs = s at ih hcli ⊢
    have more : ∀ (e : AEv) (b : Nat × Nat), b ∈ s.beats →
        ∃ (c : ACall) (id : Int), (astep v s.cli e).calls[b.2]? = some c ∧ heartbeatRequest id = .ok c.req := by
      intro e b hb
      obtain ⟨c, id, h1, h2⟩ := ih b hb
      rw [hcli] at h1 ⊢
      obtain ⟨c', g1, g2, -⟩ := call_persist v s.log [e] h1
      rw [arun_snoc] at g1
      exact ⟨c', id, g1, by rw [g2]; exact h2⟩
    intro b hb
    cases e with
    | loop e => exact more e b hb
    | tick d => exact ih b hb
    | beat id =>
      revert hb
      simp only [beatStep]
      split
      · split
        · split
          · exact ih b
          · next p hp =>
            intro hb
            rcases List.mem_append.1 hb with hb | hb
            · exact more (.call p) b hb
            · cases List.mem_singleton.1 hb
              refine ⟨{ req := p }, id, ?_, hp⟩
              show (s.cli.calls ++ [({ req := p } : ACall)])[s.cli.calls.length]? = _
              simp
        · exact ih b
      · exact ih b
    | look =>
      revert hb
      simp only [beatStep]
      repeat' split
      all_goals exact ih b

/-- the timer's place and the list of heartbeats fit together -/
structure BeatInv (s : BeatSt) : Prop where
  waiting : ∀ i, s.timer = .waiting i → ∃ t, (t, i) ∈ s.beats
  /-- every heartbeat but the one waited for has ended, and all but the last one without an exception -/
  ended : ∀ (k : Nat) (b : Nat × Nat), s.beats[k]? = some b → k + 1 < s.beats.length ∨ (∃ t, s.timer = .asleep t) →
    ∃ (c : ACall) (p : Pkg), s.cli.calls[b.2]? = some c ∧ c.pc = .done (.resp p)
  last : ∀ i, s.timer = .waiting i → (s.beats.getLast?).map Prod.snd = some i
  past : ∀ b ∈ s.beats, b.1 ≤ s.clock
  gap : ∀ t, s.timer = .asleep t → ∀ b ∈ s.beats, b.1 + beatInterval ≤ t
  first : ∀ t, s.timer = .asleep t → beatInterval ≤ t
  apart : s.beats.Pairwise fun a b => a.1 + beatInterval ≤ b.1
  start : ∀ b ∈ s.beats, beatInterval ≤ b.1

theorem heartbeatResult_ok {req : Pkg} {r : CallRes} {b : Bool} (h : heartbeatResult req r = .ok b) : ∃ p, r = .resp p := by
  cases r with
  | none => cases h
  | raised e => cases h
  | resp p => exact ⟨p, rfl⟩

theorem BeatInv.run (v : PyVer) (evs : List BeatEv) : BeatInv (beatRun v evs) := by
  induction evs using snoc_induct with
  | nil =>
    refine ⟨fun i h => (by cases h), fun k b h => (by cases h), fun i h => (by cases h), fun b h => (by cases h),
      fun t _ b h => (by cases h), fun t h => ?_, .nil, fun b h => (by cases h)⟩
    cases h
    exact Nat.le_refl _
  | snoc evs e ih =>
    have hcli := beatRun_cli v evs
    rw [beatRun_snoc]
    generalize beatRun v evs = s at ih hcli ⊢
    have persist : ∀ (e : AEv) (i : Nat) (c : ACall) (p : Pkg), s.cli.calls[i]? = some c → c.pc = .done (.resp p) →
        ∃ (c : ACall) (p : Pkg), (astep v s.cli e).calls[i]? = some c ∧ c.pc = .done (.resp p) := by
      intro e i c p h1 h2
      rw [hcli] at h1 ⊢
      obtain ⟨c', g1, -, -, -, g5⟩ := call_persist v s.log [e] h1
      rw [arun_snoc] at g1
      exact ⟨c', p, g1, g5 _ h2⟩
    cases e with
    | loop e =>
      refine ⟨ih.waiting, ?_, ih.last, ih.past, ih.gap, ih.first, ih.apart, ih.start⟩
      intro k b h1 h2
      obtain ⟨c, p, h3, h4⟩ := ih.ended k b h1 h2
      exact persist e _ c p h3 h4
    | tick d =>
      exact ⟨ih.waiting, ih.ended, ih.last, fun b h => Nat.le_trans (ih.past b h) (Nat.le_add_right _ _), ih.gap, ih.first,
        ih.apart, ih.start⟩
    | beat id =>
      simp only [beatStep]
      split
      · next till ht =>
        split
        · next hle =>
          split
          · next e _ =>
            refine ⟨fun i h => (by cases h), ?_, fun i h => (by cases h), ih.past, fun t h => (by cases h),
              fun t h => (by cases h), ih.apart, ih.start⟩
            intro k b h1 _
            exact ih.ended k b h1 (.inr ⟨_, ht⟩)
          · next p _ =>
            have hall : ∀ b ∈ s.beats, b.1 + beatInterval ≤ s.clock := fun b hb => Nat.le_trans (ih.gap _ ht b hb) hle
            refine ⟨?_, ?_, ?_, ?_, fun t h => (by cases h), fun t h => (by cases h), ?_, ?_⟩
            · intro i h
              cases h
              exact ⟨s.clock, by simp⟩
            · intro k b h1 h2
              dsimp only at h1 h2 ⊢
              rcases h2 with h2 | ⟨t, h2⟩
              · rw [List.length_append] at h2
                have hk : k < s.beats.length := by simpa using h2
                rw [List.getElem?_append_left hk] at h1
                obtain ⟨c, q, h3, h4⟩ := ih.ended k b h1 (.inr ⟨_, ht⟩)
                exact persist (.call p) _ c q h3 h4
              · cases h2
            · intro i h
              cases h
              dsimp only
              simp
            · intro b hb
              rcases List.mem_append.1 hb with hb | hb
              · exact ih.past b hb
              · cases List.mem_singleton.1 hb; exact Nat.le_refl _
            · dsimp only
              rw [List.pairwise_append]
              refine ⟨ih.apart, List.pairwise_singleton _ _, fun a ha b hb => ?_⟩
              cases List.mem_singleton.1 hb
              exact hall a ha
            · intro b hb
              rcases List.mem_append.1 hb with hb | hb
              · exact ih.start b hb
              · cases List.mem_singleton.1 hb
                exact Nat.le_trans (ih.first _ ht) hle
        · exact ih
      · exact ih
    | look =>
      simp only [beatStep]
      split
      · next i ht =>
        split
        · next c hc =>
          split
          · next r hr =>
            split
            · next b hb =>
              obtain ⟨p, rfl⟩ := heartbeatResult_ok hb
              refine ⟨fun i h => (by cases h), ?_, fun i h => (by cases h), ih.past, ?_, ?_, ih.apart, ih.start⟩
              · intro k b h1 _
                dsimp only at h1 ⊢
                by_cases hk : k + 1 < s.beats.length
                · exact ih.ended k b h1 (.inl hk)
                · have hk' : k < s.beats.length := (List.getElem?_eq_some_iff.1 h1).1
                  have hl := ih.last i ht
                  rw [List.getLast?_eq_getElem?, show s.beats.length - 1 = k by omega, h1] at hl
                  simp only [Option.map_some, Option.some.injEq] at hl
                  exact ⟨c, p, by rw [hl]; exact hc, hr⟩
              · intro t h b hb
                cases h
                exact Nat.add_le_add_right (ih.past b hb) _
              · intro t h
                cases h
                exact Nat.le_add_left _ _
            · next e _ =>
              refine ⟨fun i h => (by cases h), ?_, fun i h => (by cases h), ih.past, fun t h => (by cases h),
                fun t h => (by cases h), ih.apart, ih.start⟩
              intro k b h1 h2
              rcases h2 with h2 | ⟨t, h2⟩
              · exact ih.ended k b h1 (.inl h2)
              · cases h2
          · exact ih
        · exact ih
      · exact ih

/-! ## the claims -/

/-- C182 as listed: with listeners that acknowledge heartbeats, the timer never stops -/
def C182_full : Prop :=
  ∀ (v : PyVer) (evs : List BeatEv) (peer : Nat → Peer), DistinctIds (beatRun v evs).log → BeatMade evs →
    Joined (beatRun v evs).cli peer → ∀ e, (beatRun v evs).timer ≠ .over e

/-- C182, what holds: the first heartbeat is sent after 30 seconds, and between any two there are 30 seconds at least, never
more than one is under way: all but the last one have ended, each of them with a response. Missing: that there are any
more. -/
theorem C182_spacing_partial (v : PyVer) (evs : List BeatEv) :
    (∀ b ∈ (beatRun v evs).beats, 30000 ≤ b.1) ∧ ((beatRun v evs).beats.Pairwise fun a b => a.1 + 30000 ≤ b.1) ∧
    ∀ (k : Nat) (b : Nat × Nat), (beatRun v evs).beats[k]? = some b → k + 1 < (beatRun v evs).beats.length →
      ∃ (c : ACall) (p : Pkg), (beatRun v evs).cli.calls[b.2]? = some c ∧ c.pc = .done (.resp p) :=
  have h := BeatInv.run v evs
  ⟨h.start, h.apart, fun k b h1 h2 => h.ended k b h1 (.inl h2)⟩

/-- a heartbeat that has ended with a response -/
theorem beats_over (v : PyVer) (evs : List BeatEv) (h : ∀ b ∈ (beatRun v evs).beats, ∀ (c : ACall) (p : Pkg),
    (beatRun v evs).cli.calls[b.2]? = some c → c.pc ≠ .done (.resp p)) : (beatRun v evs).beats.length ≤ 1 := by
  refine Nat.le_of_not_lt fun hl => ?_
  have hg : (beatRun v evs).beats[0]? = some ((beatRun v evs).beats[0]'(by omega)) := List.getElem?_eq_getElem _
  obtain ⟨c, p, h1, h2⟩ := (BeatInv.run v evs).ended 0 _ hg (.inl hl)
  exact h _ (List.mem_of_getElem? hg) c p h1 h2

/-- What happens instead, against any server: if no frame with the command code of a response, status SUCCESS and the id of a
heartbeat ever comes, the client sends one heartbeat in its life. (Acknowledgements have the command code of heartbeats.) -/
theorem C182_acknowledged (v : PyVer) (evs : List BeatEv) (hd : DistinctIds (beatRun v evs).log)
    (h : ∀ b ∈ (beatRun v evs).beats, ∀ (n : Nat) (k : AConn) (c : ACall), (beatRun v evs).cli.conns[n]? = some k →
      (beatRun v evs).cli.calls[b.2]? = some c → ∀ (us : List Bytes) (f : Fields) (cn hb ct rest : Bytes),
      k.recvd = us.flatten ++ frame false f cn hb ct ++ rest → (∀ u ∈ us, RespUnit u) → BodyFit cn hb ct →
      Fields.Fit false f → f.cmdcode = 2 → f.seventh = 0 → c.req.requestId ≠ .int f.requestId) :
    (beatRun v evs).beats.length ≤ 1 := by
  refine beats_over v evs fun b hb c p hc hr => ?_
  have hcli := beatRun_cli v evs
  rw [hcli] at hc
  obtain ⟨pre, post, n, k, c', us, f, cn, hb', ct, rest, hev, hk, -, -, -, hu, hrecv, hbf, hfit, hcmd, hst, hid, -⟩ :=
    C55_own_response v _ hd b.2 c p hc hr
  obtain ⟨k', hk', more, hmore⟩ := arun_got (pre := k.recvd) v pre (.recv n :: post) hk (List.prefix_refl _)
  rw [← hev, ← hcli] at hk'
  rw [← hcli] at hc
  refine h b hb n k' c hk' hc us f cn hb' ct (rest ++ more) ?_ hu hbf hfit hcmd hst hid
  rw [← hmore, hrecv]
  simp

/-- no response comes to a heartbeat from an asyncio listener -/
theorem heartbeat_no_response (v : PyVer) (evs : List AEv) (hd : DistinctIds evs) (peer : Nat → Peer)
    (hj : Joined (arun v evs) peer) (hreq : ∀ c ∈ (arun v evs).calls, AioMade c.req) (i : Nat) (c : ACall) (p : Pkg)
    (id : Int) (hc : (arun v evs).calls[i]? = some c) (ha : heartbeatRequest id = .ok c.req) : c.pc ≠ .done (.resp p) := by
  intro hr
  obtain ⟨pre, post, n, k, c', us, f, cn, hb, ct, rest, hev, hk, -, -, -, hu, hrecv, hbf, hfit, hcmd, hst, hid, hcont⟩ :=
    C55_own_response v evs hd i c p hc hr
  obtain ⟨k', hk', hgot⟩ := arun_got (pre := k.recvd) v pre (.recv n :: post) hk (List.prefix_refl _)
  rw [← hev] at hk'
  obtain ⟨o, ho⟩ := found_message (hgot.trans (hj.back n k' hk')) hu hrecv hbf
  have hmem := List.mem_of_getElem? ho
  obtain ⟨j, tk, r, m, fu, -, h2, h3, h4, h5, h6, h7⟩ := success_task hmem hbf hfit hst (.inl hcmd)
  have h := LInv.run (peer n).svc (peer n).reg (peer n).levs
  obtain ⟨qs, hqs, hq⟩ := sent_frames (arun v evs) hreq k'.sent
    (fun i bs hm => (C60_on_the_wire v evs i).2 k' (List.mem_of_getElem? hk') bs hm)
  obtain ⟨more, hmore⟩ := hj.there n k' hk'
  rw [← hqs] at hmore
  obtain ⟨l, l', hl, hacts⟩ := acts_prefix (peer n).svc (peer n).reg (peer n).levs qs more
    (fun q hm => by obtain ⟨_, _, _, h⟩ := hq q hm; exact h.ok) hmore
  obtain ⟨x, hx, hxk, -⟩ := task_act h h2
  rw [h3] at hxk
  have hxd : x = .dispatch r := by
    cases x with
    | dispatch r' => injection hxk with hxk; injection hxk with hxk; rw [hxk]
    | heartbeat id => injection hxk with hxk; cases hxk
    | _ => cases hxk
  subst hxd
  have hxl : .dispatch r ∈ l := by
    rcases hacts with e | ⟨-, i, e⟩
    · rw [e] at hx; exact hx
    · rw [e] at hx
      rcases List.mem_append.1 hx with hx | hx
      · exact hx
      · cases List.mem_singleton.1 hx
  have hxq : .dispatch r ∈ qs.map AnyFrame.verdict := by rw [hl]; exact List.mem_append_left _ hxl
  obtain ⟨q, hqm, hqv⟩ := List.mem_map.1 hxq
  obtain ⟨i', c'', hc'', hfr⟩ := hq q hqm
  have hrq : r.id = q.f.requestId := by
    unfold AnyFrame.verdict at hqv
    split at hqv
    · cases hqv
    · split at hqv
      · cases hqv
      · cases hqv; rfl
  have hi : i' = i := by
    refine same_call hd hc'' hc ?_
    rw [hfr.id, hid, ← h4, hrq]
  subst hi
  rw [hc] at hc''
  cases hc''
  rw [heartbeatRequest_eq] at ha
  have hcmd0 : q.f.cmdcode = 0 := by
    rw [hfr.cmd]
    injection ha with ha
    rw [← ha]
    rfl
  unfold AnyFrame.verdict at hqv
  rw [if_pos hcmd0] at hqv
  cases hqv

/-- C182, the listeners of this project: whatever happens, whatever else the client does, a client whose connections lead to
asyncio listeners sends at most one heartbeat in its life. -/
theorem C182_once (v : PyVer) (evs : List BeatEv) (hd : DistinctIds (beatRun v evs).log) (hm : BeatMade evs)
    (peer : Nat → Peer) (hj : Joined (beatRun v evs).cli peer) : (beatRun v evs).beats.length ≤ 1 := by
  refine beats_over v evs fun b hb c p hc => ?_
  obtain ⟨c', id, h1, h2⟩ := beatRun_beats v evs b hb
  rw [hc] at h1
  cases h1
  have hcli := beatRun_cli v evs
  rw [hcli] at hc hj
  refine heartbeat_no_response v _ hd peer hj ?_ b.2 c p id hc h2
  intro d hd'
  have : d.req ∈ requests (beatRun v evs).log := by rw [← arun_requests v]; exact List.mem_map_of_mem hd'
  have key : ∀ (l : List AEv), d.req ∈ requests l → AEv.call d.req ∈ l := by
    intro l
    induction l with
    | nil => intro h; cases h
    | cons e l ih =>
      intro h
      cases e with
      | call q =>
        rcases List.mem_cons.1 h with h | h
        · rw [h]; simp
        · exact List.mem_cons_of_mem _ (ih h)
      | _ => exact List.mem_cons_of_mem _ (ih h)
  exact beatRun_made v evs hm _ (key _ this)

/-- a timer that has stopped stays so, and sends nothing -/
theorem C182_over (v : PyVer) (pre post : List BeatEv) (e : PyExc) (h : (beatRun v pre).timer = .over e) :
    (beatRun v (pre ++ post)).timer = .over e ∧ (beatRun v (pre ++ post)).beats = (beatRun v pre).beats := by
  induction post using snoc_induct with
  | nil => rw [List.append_nil]; exact ⟨h, rfl⟩
  | snoc post x ih =>
    rw [← List.append_assoc, beatRun_snoc]
    generalize beatRun v (pre ++ post) = s at ih ⊢
    cases x with
    | loop x => exact ih
    | tick d => exact ih
    | beat id => simp only [beatStep, ih.1]; exact ⟨trivial, ih.2⟩
    | look => simp only [beatStep, ih.1]; exact ⟨trivial, ih.2⟩

/-- the timer after its call -/
theorem C182_look (v : PyVer) (evs : List BeatEv) (i : Nat) (c : ACall) (ht : (beatRun v evs).timer = .waiting i)
    (hc : (beatRun v evs).cli.calls[i]? = some c) :
    (beatRun v (evs ++ [.look])).timer =
      match c.pc with
      | .done (.resp _) => .asleep ((beatRun v evs).clock + 30000)
      | .done .none => .over .attributeError
      | .done (.raised e) => .over e
      | _ => .waiting i := by
  rw [beatRun_snoc]
  generalize beatRun v evs = s at ht hc ⊢
  simp only [beatStep, ht, hc]
  cases hpc : c.pc with
  | done r =>
    cases r with
    | none => rfl
    | raised e => rfl
    | resp p =>
      have : ∃ b, heartbeatResult c.req (.resp p) = .ok b := by
        show ∃ b, (if p.requestId ≠ c.req.requestId then _ else if p.respstatus ≠ .success then _ else _) = Except.ok b
        split
        · exact ⟨_, rfl⟩
        · split
          · exact ⟨_, rfl⟩
          · exact ⟨_, rfl⟩
      obtain ⟨b, hb⟩ := this
      simp only [hb]
      rfl
  | _ => exact ht

/-- a client of a listener without services, which is sent a heartbeat -/
def exTimer : List BeatEv :=
  [.tick 30000, .beat 5, .loop (.start 0 exAddr), .loop (.dialed 0 true), .loop (.drained 0 true), .loop (.drained 0 true),
   .loop (.recv 0), .loop (.data 0 (heartbeatAck 5)), .loop (.recv 0), .loop (.recv 0), .loop (.wake 0), .look]

/-- the other side -/
def exTimerPeer : Peer := ⟨exPeer.svc, [], [.data ((beatRun .from38 exTimer).cli.conns.map (fun k => (k.sent.map Prod.snd).flatten)).flatten,
  .reader, .reader, .reader, .reader, .run 0 [], .write 0]⟩

set_option maxRecDepth 40000 in
theorem exTimer_runs : DistinctIds (beatRun .from38 exTimer).log ∧ (beatRun .from38 exTimer).timer = .over .keyError ∧
    (beatRun .from38 exTimer).beats = [(30000, 0)] ∧ (beatRun .from38 exTimer).cli.conns.length = 1 ∧
    (beatRun .from38 exTimer).cli.conns.map (fun k => (k.sent.map Prod.snd).flatten) = [received exTimerPeer.levs] ∧
    (beatRun .from38 exTimer).cli.conns.map AConn.recvd = [exTimerPeer.st.wire] := by
  decide +kernel

theorem exTimer_joined : Joined (beatRun .from38 exTimer).cli fun _ => exTimerPeer := by
  obtain ⟨-, -, -, hl, h1, h2⟩ := exTimer_runs
  constructor
  · intro n k hk
    have hn : n = 0 := by have := (List.getElem?_eq_some_iff.1 hk).1; omega
    subst hn
    have : ((beatRun .from38 exTimer).cli.conns.map fun k => (k.sent.map Prod.snd).flatten)[0]? =
      some (k.sent.map Prod.snd).flatten := by rw [List.getElem?_map, hk]; rfl
    rw [h1] at this
    injection this with this
    exact ⟨[], by rw [List.append_nil]; exact this⟩
  · intro n k hk
    have hn : n = 0 := by have := (List.getElem?_eq_some_iff.1 hk).1; omega
    subst hn
    have : ((beatRun .from38 exTimer).cli.conns.map AConn.recvd)[0]? = some k.recvd := by rw [List.getElem?_map, hk]; rfl
    rw [h2] at this
    injection this with this
    exact ⟨[], by rw [List.append_nil]; exact this.symm⟩

/-- C182 is violated -/
theorem C182_violated : ¬ C182_full := by
  intro h
  refine h .from38 exTimer (fun _ => exTimerPeer) exTimer_runs.1 ?_ exTimer_joined .keyError exTimer_runs.2.1
  intro p hp
  simp [exTimer] at hp

/-- a server that answers with ordinary responses is sent a heartbeat every 30 seconds -/
def exTimerOdd : List BeatEv :=
  [.tick 30000, .beat 5, .loop (.start 0 exAddr), .loop (.dialed 0 true), .loop (.drained 0 true), .loop (.drained 0 true),
   .loop (.recv 0), .tick 10, .loop (.data 0 (reply 5 0 [])), .loop (.recv 0), .loop (.recv 0), .loop (.wake 0), .look,
   .tick 29999, .beat 6, .tick 1, .beat 6]

set_option maxRecDepth 40000 in
example : (beatRun .from38 exTimerOdd).beats = [(30000, 0), (60010, 1)] ∧ (beatRun .from38 exTimerOdd).timer = .waiting 1 := by
  decide +kernel

end Bolt
