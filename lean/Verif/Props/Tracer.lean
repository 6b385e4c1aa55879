import Verif.Lemmas.Tracer
import Verif.Props.Wire
import Verif.Props.Header
/-!
# C19-C22: carrying trace contexts
-/
namespace Bolt

/-- a carrier holding the string form of every item of `b` -/
theorem extract_core {h : Heap} (H : HeapOK h) {b : Baggage} (C : CtxOK h b) {c : PyDict PyStr PyStr}
    (hn : PyDict.NodupKeys c)
    (hg : ∀ k v, PyDict.get? b k = some v → PyDict.get? c (tracerPrefix ++ k) = some (v.toStr h))
    (hr : PyDict.get? c (tracerPrefix ++ py "reference") = none)
    (hs : PyDict.get? c (tracerPrefix ++ py "self") = none) (h2 : Heap) (fresh : PyStr) :
    ∃ h' b', extract h2 fresh c = .ok (h', b') ∧
      ∀ k, (PyDict.get? b' k).map (BagVal.toStr h') = PyDict.get? c (tracerPrefix ++ k) := by
  obtain ⟨t, ht⟩ := C.trace
  obtain ⟨r, hrl, hb⟩ := C.rpc
  have ho : h[r]? = some h[r] := by simp [hrl]
  have hseg := H.segs r _ ho
  have hid : PyDict.get? (extractItems c) kRpcId = some (rpcStr (h[r]).segs) := by
    rw [extractItems_get? hn, hg _ _ hb]
    simp [BagVal.toStr, ho]
  have hti : PyDict.get? (extractItems c) kTraceId = some t := by
    rw [extractItems_get? hn, hg _ _ ht]; rfl
  unfold extract
  cases hk : spanCtxFromKwargs h2 fresh (extractItems c) with
  | error e =>
    rcases spanCtxFromKwargs_error hk with h1 | h1 | ⟨e', h1⟩
    · rw [extractItems_get? hn, hr] at h1; cases h1
    · rw [extractItems_get? hn, hs] at h1; cases h1
    · rw [hid, Option.getD_some, hseg.roundtrip] at h1; cases h1
  | ok p =>
    obtain ⟨h', b'⟩ := p
    obtain ⟨-, segs, hi, rfl, -, hgb⟩ := spanCtxFromKwargs_ok (extractItems_nodup c) hk
    rw [hid, Option.getD_some, hseg.roundtrip] at hi
    cases hi
    refine ⟨_, b', rfl, ?_⟩
    intro k
    rw [hgb]
    by_cases e1 : k = kTraceId
    · subst e1
      rw [if_pos rfl, hti, ← extractItems_get? hn, hti]; rfl
    · rw [if_neg e1]
      by_cases e2 : k = kRpcId
      · subst e2
        rw [if_pos rfl, ← extractItems_get? hn, hid]
        simp [BagVal.toStr]
      · rw [if_neg e2, extractItems_get? hn]
        cases PyDict.get? c (tracerPrefix ++ k) <;> rfl

theorem inject_eq (h : Heap) (b : Baggage) (c : PyDict PyStr PyStr) :
    inject h b c = PyDict.update c (b.map (fun kv => (tracerPrefix ++ kv.1, kv.2.toStr h))) := by
  simp [inject, PyDict.update, List.foldl_map]

theorem inject_get? {h : Heap} {b : Baggage} (hb : PyDict.NodupKeys b) (c : PyDict PyStr PyStr) (k : PyStr) :
    PyDict.get? (inject h b c) (tracerPrefix ++ k) =
      ((PyDict.get? b k).map (BagVal.toStr h)).or (PyDict.get? c (tracerPrefix ++ k)) := by
  have hinj : ∀ a b : PyStr, tracerPrefix ++ a = tracerPrefix ++ b → a = b := fun a b e => List.append_cancel_left e
  rw [inject_eq, PyDict.get?_update_nodup _ (nodup_mapKeys hb (tracerPrefix ++ ·) hinj (BagVal.toStr h)),
    get?_mapKeys b (tracerPrefix ++ ·) hinj (BagVal.toStr h)]

/-- C19 as stated: for every context obtained by any history, every carrier, and every process extracting. -/
def C19_full : Prop :=
  ∀ (ops : List TOp) (b : Baggage), b ∈ (trun ops).ctxs → ∀ (carrier : PyDict PyStr PyStr),
    PyDict.NodupKeys carrier → ∀ (h2 : Heap) (fresh : PyStr),
    ∃ h' b', extract h2 fresh (inject (trun ops).heap b carrier) = .ok (h', b') ∧
      ∀ k v, PyDict.get? b k = some v →
        (PyDict.get? b' k).map (BagVal.toStr h') = some (v.toStr (trun ops).heap)

/-- C19 fails: a carrier that already holds `rpc_trace_context.self` makes `extract` raise. -/
theorem C19_violated : ¬ C19_full := by
  intro hf
  obtain ⟨h', b', he, -⟩ := hf [.root (py "t")] [(kTraceId, .trace (py "t")), (kRpcId, .rpc 0)] (by decide)
    [(py "rpc_trace_context.self", py "x")] (by decide) [] []
  have : extract [] [] (inject (trun [.root (py "t")]).heap [(kTraceId, .trace (py "t")), (kRpcId, .rpc 0)]
    [(py "rpc_trace_context.self", py "x")]) = .error .invalidCarrier := by decide
  rw [this] at he; cases he

/-- C19 for carriers without the two keys naming constructor parameters; the extracted context then holds exactly
the injected items and the carrier's other trace items. -/
theorem C19_inject_extract_partial (ops : List TOp) (b : Baggage) (hb : b ∈ (trun ops).ctxs)
    (carrier : PyDict PyStr PyStr) (hn : PyDict.NodupKeys carrier)
    (h1 : PyDict.get? carrier (py "rpc_trace_context.reference") = none)
    (h2 : PyDict.get? carrier (py "rpc_trace_context.self") = none) (heap2 : Heap) (fresh : PyStr) :
    ∃ h' b', extract heap2 fresh (inject (trun ops).heap b carrier) = .ok (h', b') ∧
      (∀ k v, PyDict.get? b k = some v →
        (PyDict.get? b' k).map (BagVal.toStr h') = some (v.toStr (trun ops).heap)) ∧
      (∀ k, PyDict.get? b k = none →
        (PyDict.get? b' k).map (BagVal.toStr h') = PyDict.get? carrier (py "rpc_trace_context." ++ k)) := by
  have I := trun_inv ops
  have C := I.ctxs b hb
  have hnc : PyDict.NodupKeys (inject (trun ops).heap b carrier) := by
    rw [inject_eq]; exact PyDict.nodup_update hn _
  obtain ⟨h', b', he, hg⟩ := extract_core I.heap C hnc
    (by intro k v hv; rw [inject_get? C.nodup, hv]; rfl)
    (by rw [inject_get? C.nodup, C.noRef]; exact h1)
    (by rw [inject_get? C.nodup, C.noSelf]; exact h2) heap2 fresh
  refine ⟨h', b', he, ?_, ?_⟩
  · intro k v hv
    rw [hg, inject_get? C.nodup, hv]; rfl
  · intro k hk
    rw [hg, inject_get? C.nodup, hk]; rfl

/-- C19, exactly: injecting into a carrier and extracting from it succeeds if and only if the carrier has neither of
the two keys; otherwise `extract` raises InvalidCarrierException. -/
theorem C19_exact_partial (ops : List TOp) (b : Baggage) (hb : b ∈ (trun ops).ctxs)
    (carrier : PyDict PyStr PyStr) (hn : PyDict.NodupKeys carrier) (heap2 : Heap) (fresh : PyStr) :
    ((∃ r, extract heap2 fresh (inject (trun ops).heap b carrier) = .ok r) ↔
      PyDict.contains carrier (py "rpc_trace_context.reference") = false ∧
      PyDict.contains carrier (py "rpc_trace_context.self") = false) ∧
    ∀ e, extract heap2 fresh (inject (trun ops).heap b carrier) = .error e → e = .invalidCarrier := by
  have hcn : ∀ k, PyDict.contains carrier k = false ↔ PyDict.get? carrier k = none := by
    intro k
    unfold PyDict.contains
    cases PyDict.get? carrier k <;> simp
  refine ⟨⟨?_, ?_⟩, ?_⟩
  · rintro ⟨⟨h', b'⟩, he⟩
    have C := (trun_inv ops).ctxs b hb
    have hnc : PyDict.NodupKeys (inject (trun ops).heap b carrier) := by
      rw [inject_eq]; exact PyDict.nodup_update hn _
    unfold extract at he
    split at he
    · rename_i r hr
      cases he
      obtain ⟨⟨h1, h2⟩, -⟩ := spanCtxFromKwargs_ok (extractItems_nodup _) hr
      rw [extractItems_get? hnc, inject_get? C.nodup] at h1 h2
      rw [C.noRef] at h1
      rw [C.noSelf] at h2
      exact ⟨(hcn _).2 h1, (hcn _).2 h2⟩
    · cases he
  · rintro ⟨h1, h2⟩
    obtain ⟨h', b', he, -⟩ := C19_inject_extract_partial ops b hb carrier hn ((hcn _).1 h1) ((hcn _).1 h2) heap2 fresh
    exact ⟨_, he⟩
  · intro e he
    unfold extract at he
    split at he
    · cases he
    · cases he; rfl

/-- a history with an extracted context (string segments, baggage), its child, and a carrier with an unrelated and a
clashing trace item meets the hypotheses -/
example : let ops := [TOp.extract (py "f") [(py "rpc_trace_context.sofaRpcId", py "a.7"),
      (py "rpc_trace_context.user", py "u1")], TOp.child 0 []]
    (trun ops).ctxs.length = 2 ∧
    (∃ b, (trun ops).ctxs[1]? = some b ∧
      (PyDict.get? b kRpcId).map (BagVal.toStr (trun ops).heap) = some (py "a.7.1") ∧
      PyDict.get? b (py "user") = some (.str (py "u1"))) := by
  refine ⟨by decide, _, rfl, by decide, by decide⟩

/-! ## C20 -/

theorem mem_strHeader_get? (d : PyDict PyStr PyStr) (k : PyStr) :
    PyDict.get? (strHeader d) k = (PyDict.get? d k).map PyObj.str := by
  unfold strHeader
  exact PyDict.get?_map d PyObj.str k

theorem nodup_strHeader {d : PyDict PyStr PyStr} (h : PyDict.NodupKeys (strHeader d)) : PyDict.NodupKeys d := by
  unfold PyDict.NodupKeys strHeader at *
  rw [List.map_map] at h
  exact h

/-- C20 as stated: any context `b` of any history of the calling process, any interface, method, app, uid, content and
further headers (none of which is itself a trace key); the call's header is built by `build_header`, put into a request
with any id, type and timeout, encoded, decoded by the server, and the context extracted there. -/
def C20_full : Prop :=
  ∀ (ops : List TOp) (b : Baggage), b ∈ (trun ops).ctxs →
  ∀ (interface method app uid : PyObj) (extra : PyDict PyStr PyObj), PyDict.NodupKeys extra →
  (∀ k, PyDict.get? extra (py "rpc_trace_context." ++ k) = none) →
  ∀ hd, buildHeader (trun ops).heap b interface method app uid extra = .ok hd →
  ∀ (content : PyObj) (a : PkgArgs) (p : Pkg) (bs : Bytes), mkPkg .boltRequest hd content a = .ok p →
  p.toStream = .ok bs → ∀ (heap2 : Heap) (fresh : PyStr),
  ∃ q d h' b', fromStream .boltRequest bs = .ok q ∧ q.header = strHeader d ∧ extract heap2 fresh d = .ok (h', b') ∧
    ∀ k, (PyDict.get? b' k).map (BagVal.toStr h') = (PyDict.get? b k).map (BagVal.toStr (trun ops).heap)

/-- C20 for contexts whose baggage has no item named like an attribute of RpcTraceContext. -/
theorem C20_context_survives_call_partial (ops : List TOp) (b : Baggage) (hb : b ∈ (trun ops).ctxs)
    (hbn : Spec.Benign b) (interface method app uid : PyObj) (extra : PyDict PyStr PyObj)
    (hne : PyDict.NodupKeys extra) (hex : ∀ k, PyDict.get? extra (py "rpc_trace_context." ++ k) = none)
    (hd : SofaHeader) (hbh : buildHeader (trun ops).heap b interface method app uid extra = .ok hd)
    (content : PyObj) (a : PkgArgs) (p : Pkg) (bs : Bytes) (hp : mkPkg .boltRequest hd content a = .ok p)
    (hs : p.toStream = .ok bs) (heap2 : Heap) (fresh : PyStr) :
    ∃ q d h' b', fromStream .boltRequest bs = .ok q ∧ q.header = strHeader d ∧ extract heap2 fresh d = .ok (h', b') ∧
      ∀ k, (PyDict.get? b' k).map (BagVal.toStr h') = (PyDict.get? b k).map (BagVal.toStr (trun ops).heap) := by
  have I := trun_inv ops
  have C := I.ctxs b hb
  obtain ⟨hB, hnd⟩ := (C18_build_header_partial (trun ops).heap b interface method app uid extra C.nodup hne hbn).1 hd hbh
  obtain ⟨q, hq, hqh, -⟩ := C01_request_roundtrip .boltRequest rfl hd hnd content a p bs hp hs
  obtain ⟨-, -, h3, -⟩ := (mkPkg_ok_iff _ _ _ _ _).1 hp
  obtain ⟨d, -, hd2⟩ := headerFromBytes_toBytes hnd h3
  have hnd' : PyDict.NodupKeys d := nodup_strHeader (by rw [hd2]; exact hnd)
  have hdget : ∀ k, PyDict.get? d (tracerPrefix ++ k) = (PyDict.get? b k).map (BagVal.toStr (trun ops).heap) := by
    intro k
    cases hbk : PyDict.get? b k with
    | some v =>
      have := hB.trace_ok k v hbk
      rw [← hd2, mem_strHeader_get?] at this
      obtain ⟨s, hs1, hs2⟩ := Option.map_eq_some_iff.1 this
      cases hs2
      exact hs1
    | none =>
      cases hdk : PyDict.get? d (tracerPrefix ++ k) with
      | none => rfl
      | some s =>
        exfalso
        have h1 : PyDict.contains hd (Spec.traceName k) = true := by
          rw [← hd2, PyDict.contains, mem_strHeader_get?]
          show (Option.map PyObj.str (PyDict.get? d (tracerPrefix ++ k))).isSome = true
          rw [hdk]; rfl
        rcases hB.only_ok _ h1 with h2 | h2 | ⟨k', h2, h4⟩
        · exact traceName_not_reserved k h2
        · have := hex k
          unfold PyDict.contains at h2
          rw [show Spec.traceName k = py "rpc_trace_context." ++ k from rfl, this] at h2
          cases h2
        · have := traceName_inj _ _ h4
          subst this
          unfold PyDict.contains at h2
          rw [hbk] at h2; cases h2
  obtain ⟨h', b', he, hg⟩ := extract_core I.heap C hnd'
    (by intro k v hv; rw [hdget, hv]; rfl)
    (by rw [hdget, C.noRef]; rfl)
    (by rw [hdget, C.noSelf]; rfl) heap2 fresh
  exact ⟨q, d, h', b', hq, by rw [hqh, hd2], he, fun k => by rw [hg, hdget]⟩

/-- C20, exactly: if the header can be built and the request encoded, the context survives the call if and only if its
baggage is benign (then, an item called `prefix` has the standard prefix as its value). -/
theorem C20_exact_partial (ops : List TOp) (b : Baggage) (hb : b ∈ (trun ops).ctxs)
    (interface method app uid : PyObj) (extra : PyDict PyStr PyObj)
    (hne : PyDict.NodupKeys extra) (hex : ∀ k, PyDict.get? extra (py "rpc_trace_context." ++ k) = none)
    (hd : SofaHeader) (hbh : buildHeader (trun ops).heap b interface method app uid extra = .ok hd)
    (content : PyObj) (a : PkgArgs) (p : Pkg) (bs : Bytes) (hp : mkPkg .boltRequest hd content a = .ok p)
    (hs : p.toStream = .ok bs) (heap2 : Heap) (fresh : PyStr) :
    (∃ q d h' b', fromStream .boltRequest bs = .ok q ∧ q.header = strHeader d ∧ extract heap2 fresh d = .ok (h', b') ∧
      ∀ k, (PyDict.get? b' k).map (BagVal.toStr h') = (PyDict.get? b k).map (BagVal.toStr (trun ops).heap)) ↔
    Spec.Benign b := by
  have C := (trun_inv ops).ctxs b hb
  constructor
  · rintro ⟨q, d, h', b', hq, hqd, he, hg⟩
    have hnd := (buildHeader_names hbh).1
    obtain ⟨q', hq', hqh, -⟩ := C01_request_roundtrip .boltRequest rfl hd hnd content a p bs hp hs
    rw [hq] at hq'; cases hq'
    have hd2 : strHeader d = hd := hqd.symm.trans hqh
    have hnd' : PyDict.NodupKeys d := nodup_strHeader (by rw [hd2]; exact hnd)
    refine ⟨fun k hk hsp => ?_, fun v hv => ?_⟩
    · obtain ⟨e, he, -⟩ := expand_special (h := (trun ops).heap) hk hsp
      unfold buildHeader at hbh
      rw [he] at hbh; cases hbh
    · obtain ⟨w, rfl, hkeys⟩ := buildHeader_prefix C.nodup hbh hv
      refine Classical.byContradiction fun hpne => ?_
      obtain ⟨k, hk, k1, k2, hm⟩ := prefix_missing (b.map Prod.fst)
        ((PyDict.contains_iff b _).1 (by unfold PyDict.contains; rw [hv]; rfl)) w (fun e => hpne (by rw [e]))
      have hdn : PyDict.get? d (tracerPrefix ++ k) = none := by
        cases hdk : PyDict.get? d (tracerPrefix ++ k) with
        | none => rfl
        | some s =>
          exfalso
          have h1 : PyDict.contains hd (Spec.traceName k) = true := by
            rw [← hd2, PyDict.contains, mem_strHeader_get?]
            show (Option.map PyObj.str (PyDict.get? d (tracerPrefix ++ k))).isSome = true
            rw [hdk]; rfl
          rcases hkeys _ h1 with h2 | h2 | ⟨k', hk', h2⟩
          · exact traceName_not_reserved k h2
          · unfold PyDict.contains at h2
            rw [show Spec.traceName k = py "rpc_trace_context." ++ k from rfl, hex k] at h2
            cases h2
          · exact hm k' hk' h2
      unfold extract at he
      split at he
      · rename_i r hr
        cases he
        obtain ⟨-, segs, -, -, -, hgb⟩ := spanCtxFromKwargs_ok (extractItems_nodup _) hr
        have h3 := hg k
        rw [hgb, if_neg k1, if_neg k2, extractItems_get? hnd', hdn] at h3
        obtain ⟨x, hx⟩ := Option.isSome_iff_exists.1 ((PyDict.contains_iff b k).2 hk)
        rw [hx] at h3; cases h3
      · cases he
  · intro hbn
    exact C20_context_survives_call_partial ops b hb hbn interface method app uid extra hne hex hd hbh content a p bs
      hp hs heap2 fresh

/-- a request with a representable header, content, id and timeout exists and encodes -/
theorem newRequest_encodes {hd : SofaHeader} {hb : Bytes} (hh : headerToBytes hd = .ok hb) (hl : hb.length < 65536)
    (c : Bytes) (hc : c.length < 2 ^ 32) (ptype : PType) (t : Int) (ht : t ≠ 0) (ht1 : -2 ^ 31 ≤ t) (ht2 : t < 2 ^ 31)
    (id : Int) (hi1 : -2 ^ 31 ≤ id) (hi2 : id < 2 ^ 31) :
    ∃ p bs, newRequest hd (.bytes c) ptype (.int t) id = .ok p ∧ p.toStream = .ok bs ∧ p.cls = .boltRequest ∧
      p.headerBytes = hb ∧ p.content = .bytes c ∧ p.requestId = .int id ∧ p.ptype = ptype ∧ p.timeout = .int t ∧
      p.header = hd ∧ p.cmdcode = .request := by
  have ht' : (t != 0) = true := by simpa using ht
  let p : Pkg := ⟨.boltRequest, hd, hb, .bytes c, .bolt, ptype, .request, .remoting, .int id, .protobuf, .int t, .success⟩
  have hp : newRequest hd (.bytes c) ptype (.int t) id = .ok p := by
    unfold newRequest
    rw [mkPkg_ok_iff]
    refine ⟨rfl, rfl, hh, rfl, rfl, rfl, rfl, rfl, rfl, rfl, ?_, rfl⟩
    simp [PyObj.or, PyObj.truthy, ht', p]
  obtain ⟨bs, hbs⟩ := (C04_encodable_iff p).1.2 ⟨⟨id, rfl, hi1, hi2⟩, fun _ => ⟨t, rfl, ht1, ht2⟩, ⟨c, rfl, hc⟩, hl⟩
  exact ⟨p, bs, hp, hbs, rfl, rfl, rfl, rfl, rfl, rfl, rfl, rfl⟩

/-- the context extracted from a carrier with baggage item `prefix` -/
def exPrefixOps : List TOp := [.extract (py "f") [(py "rpc_trace_context.sofaTraceId", py "t"),
  (py "rpc_trace_context.prefix", py "x.")]]
def exPrefixCtx : Baggage := [(py "prefix", .str (py "x.")), (kTraceId, .trace (py "t")), (kRpcId, .rpc 0)]
def exPrefixHeader : PyDict PyStr PyStr :=
  [(py "sofa_head_target_service", py "I"), (py "sofa_head_method_name", py "m"), (py "sofa_head_target_app", []),
   (py "service", py "I"), (py "uid", []), (py "x.prefix", py "x."), (py "x.sofaTraceId", py "t"),
   (py "x.sofaRpcId", py "1")]

set_option maxRecDepth 20000 in
/-- C20 fails: a context with a baggage item called `prefix` (obtainable with `extract`) is sent under wrong names, and
the server starts a new trace. -/
theorem C20_violated : ¬ C20_full := by
  intro hf
  obtain ⟨hb, hh, hl⟩ : ∃ hb, headerToBytes (strHeader exPrefixHeader) = .ok hb ∧ hb.length < 65536 :=
    ⟨_, rfl, by decide⟩
  obtain ⟨p, bs, hp, hs, -⟩ := newRequest_encodes hh hl [] (by decide) .request 1 (by decide) (by decide) (by decide)
    5 (by decide) (by decide)
  have hbh : buildHeader (trun exPrefixOps).heap exPrefixCtx (.str (py "I")) (.str (py "m")) (.str []) (.str []) [] =
    .ok (strHeader exPrefixHeader) := by decide
  obtain ⟨q, d, h', b', hq, hqh, he, hg⟩ := hf exPrefixOps exPrefixCtx (by decide) (.str (py "I")) (.str (py "m"))
    (.str []) (.str []) [] (by decide) (by intro k; rfl) _ hbh _ _ p bs hp hs [] (py "other")
  obtain ⟨q', hq', hqh', -⟩ := C01_request_roundtrip .boltRequest rfl _ (by decide) _ _ p bs hp hs
  rw [hq] at hq'
  cases hq'
  have hd : d = exPrefixHeader := by
    rw [hqh'] at hqh
    have hinj : ∀ a b : PyDict PyStr PyStr, strHeader a = strHeader b → a = b := by
      intro a b e
      unfold strHeader at e
      refine List.map_inj_right (f := fun kv : PyStr × PyStr => (kv.1, PyObj.str kv.2)) ?_ |>.1 e
      intro x y hxy
      simp only [Prod.mk.injEq, PyObj.str.injEq] at hxy
      exact Prod.ext hxy.1 hxy.2
    exact (hinj _ _ hqh).symm
  subst hd
  have h1 : extract [] (py "other") exPrefixHeader = .ok ([⟨[.int 1], 0, none⟩],
    [(kTraceId, .trace (py "other")), (kRpcId, .rpc 0)]) := by decide
  rw [h1] at he
  cases he
  have := hg kTraceId
  exact absurd this (by decide)

/-- the hypotheses of the partial theorem hold for a derived context with extra baggage -/
example : ∃ b ∈ (trun [.extract (py "f") [(py "rpc_trace_context.user", py "u")], .child 0 []]).ctxs,
    Spec.Benign b ∧ PyDict.get? b (py "user") = some (.str (py "u")) ∧
    (∃ hd, buildHeader (trun [.extract (py "f") [(py "rpc_trace_context.user", py "u")], .child 0 []]).heap b
      (.str (py "I")) (.str (py "m")) (.str []) (.str []) [(py "x", .str (py "y"))] = .ok hd) := by
  refine ⟨[(kRpcId, .rpc 1), (py "user", .str (py "u")), (kTraceId, .trace (py "f"))], by decide,
    ⟨by decide, fun v hv => ?_⟩, by decide, ⟨_, rfl⟩⟩
  exact nomatch (show (none : Option BagVal) = some v from hv)

/-! ## C21 -/

/-- the part of a string after its last dot (all of it if there is none) -/
def Spec.lastSegment (s : PyStr) : PyStr := (s.reverse.takeWhile (· != 46)).reverse

theorem takeWhile_all {p : Nat → Bool} {l : List Nat} (h : ∀ x ∈ l, p x = true) : l.takeWhile p = l := by
  induction l with
  | nil => rfl
  | cons a l ih => simp [List.takeWhile, h a (by simp), ih (fun x hx => h x (by simp [hx]))]

theorem mem_takeWhile {p : Nat → Bool} {l : List Nat} {x : Nat} (h : x ∈ l.takeWhile p) : p x = true := by
  induction l with
  | nil => simp at h
  | cons a l ih =>
    simp only [List.takeWhile] at h
    split at h
    · rename_i ha
      rcases List.mem_cons.1 h with rfl | h
      · exact ha
      · exact ih h
    · simp at h

theorem mem_zip_self {α : Type} {l : List α} {x : α × α} (h : x ∈ l.zip l) : x.1 = x.2 := by
  induction l with
  | nil => simp at h
  | cons a l ih =>
    simp only [List.zip_cons_cons, List.mem_cons] at h
    rcases h with rfl | h
    · rfl
    · exact ih h

theorem rpcInit_default : rpcInit ((pySplit 46 ((none : Option PyStr).getD (py "1"))).map Seg.str) = .ok [.int 1] := by
  decide

theorem pySplit_getLast (s : PyStr) : (pySplit 46 s).getLast? = some (Spec.lastSegment s) := by
  induction s with
  | nil => rfl
  | cons c s ih =>
    have key : Spec.lastSegment (c :: s) =
        if 46 ∈ s then Spec.lastSegment s else if c = 46 then s else c :: s := by
      unfold Spec.lastSegment
      rw [List.reverse_cons, List.takeWhile_append]
      by_cases hm : 46 ∈ s
      · rw [if_pos hm, if_neg]
        intro hlen
        have hall : ∀ x ∈ s.reverse, (x != 46) = true := by
          have h1 : s.reverse.takeWhile (· != 46) = s.reverse :=
            (List.takeWhile_prefix _).eq_of_length hlen
          intro x hx
          rw [← h1] at hx
          exact mem_takeWhile (p := (· != 46)) hx
        have := hall 46 (by simpa using hm)
        simp at this
      · have h1 : s.reverse.takeWhile (· != 46) = s.reverse := by
          refine takeWhile_all ?_
          intro x hx
          have hx' : x ∈ s := by simpa using hx
          simp only [bne_iff_ne, ne_eq]
          rintro rfl; exact hm hx'
        rw [if_neg hm, h1, if_pos rfl]
        by_cases hc : c = 46
        · simp [hc]
        · have : (c != 46) = true := by simpa using hc
          simp [hc, List.takeWhile, this]
    rw [key]
    simp only [pySplit]
    by_cases hm : 46 ∈ s
    · rw [if_pos hm]
      have hlen : ∃ w w2 ws, pySplit 46 s = w :: w2 :: ws := by
        cases hsp : pySplit 46 s with
        | nil => exact absurd hsp (pySplit_ne_nil _ _)
        | cons w ws =>
          cases ws with
          | cons w2 ws => exact ⟨w, w2, ws, rfl⟩
          | nil =>
            exfalso
            have hj : ∀ t : PyStr, pyJoin 46 (pySplit 46 t) = t := by
              intro t
              induction t with
              | nil => rfl
              | cons d t iht =>
                simp only [pySplit]
                split
                · rename_i hd
                  cases hs2 : pySplit 46 t with
                  | nil => exact absurd hs2 (pySplit_ne_nil _ _)
                  | cons a l => rw [hs2] at iht; simp [pyJoin, iht, hd]
                · split
                  · rename_i h0; exact absurd h0 (pySplit_ne_nil _ _)
                  · rename_i a l hs2
                    rw [hs2] at iht
                    cases l with
                    | nil => simp only [pyJoin] at iht ⊢; rw [iht]
                    | cons a2 l => simp only [pyJoin, List.cons_append] at iht ⊢; rw [iht]
            have h1 := hj s
            rw [hsp] at h1
            simp only [pyJoin] at h1
            subst h1
            exact pySplit_mem_no_sep w (by rw [hsp]; simp) hm
      obtain ⟨w, w2, ws, hsp⟩ := hlen
      rw [hsp] at ih ⊢
      split
      · rw [List.getLast?_cons_cons]; exact ih
      · simp only [List.getLast?_cons_cons] at ih ⊢; exact ih
    · rw [if_neg hm, pySplit_no_sep hm]
      split <;> simp

/-- C21 (extract is total): it returns a context or raises InvalidCarrierException; it raises exactly when the carrier's
rpc id has a last segment that is not an integer literal, or a trace key is named like a constructor parameter; without
trace keys the context has the fresh trace id, rpc id `1`, and nothing else. -/
theorem C21_extract_total (h : Heap) (fresh : PyStr) (carrier : PyDict PyStr PyStr) (hn : PyDict.NodupKeys carrier) :
    (∀ e, extract h fresh carrier = .error e → e = .invalidCarrier) ∧
    ((∃ e, extract h fresh carrier = .error e) ↔
      (∃ s, PyDict.get? carrier (py "rpc_trace_context.sofaRpcId") = some s ∧ pyInt (Spec.lastSegment s) = none) ∨
      PyDict.contains carrier (py "rpc_trace_context.reference") = true ∨
      PyDict.contains carrier (py "rpc_trace_context.self") = true) ∧
    ((∀ k, PyDict.contains carrier (py "rpc_trace_context." ++ k) = false) →
      ∃ h' b', extract h fresh carrier = .ok (h', b') ∧
        ∀ k, (PyDict.get? b' k).map (BagVal.toStr h') =
          if k = py "sofaTraceId" then some fresh else if k = py "sofaRpcId" then some (py "1") else none) := by
  have hname : ∀ (k : PyStr), PyDict.get? (extractItems carrier) k = PyDict.get? carrier (tracerPrefix ++ k) :=
    extractItems_get? hn
  have hiff : (∃ e, extract h fresh carrier = .error e) ↔
      (∃ s, PyDict.get? carrier (py "rpc_trace_context.sofaRpcId") = some s ∧ pyInt (Spec.lastSegment s) = none) ∨
      PyDict.contains carrier (py "rpc_trace_context.reference") = true ∨
      PyDict.contains carrier (py "rpc_trace_context.self") = true := by
    have hbad : ∀ e', rpcInit ((pySplit 46 ((PyDict.get? (extractItems carrier) kRpcId).getD (py "1"))).map Seg.str) = .error e' →
        ∃ s, PyDict.get? carrier (py "rpc_trace_context.sofaRpcId") = some s ∧ pyInt (Spec.lastSegment s) = none := by
      intro e' he'
      cases hg : PyDict.get? (extractItems carrier) kRpcId with
      | none => rw [hg, rpcInit_default] at he'; cases he'
      | some s =>
        rw [hg, Option.getD_some] at he'
        refine ⟨s, by rw [hname] at hg; exact hg, ?_⟩
        cases hp : pyInt (Spec.lastSegment s) with
        | none => rfl
        | some i =>
          have := (rpcInit_split_ok_iff s _).2 ⟨rfl, _, i, pySplit_getLast s, hp⟩
          rw [this] at he'; cases he'
    constructor
    · rintro ⟨e, he⟩
      unfold extract at he
      cases hk : spanCtxFromKwargs h fresh (extractItems carrier) with
      | ok r => rw [hk] at he; cases he
      | error e0 =>
        rcases spanCtxFromKwargs_error hk with h1 | h1 | ⟨e', h1⟩
        · rw [hname] at h1; exact .inr (.inl h1)
        · rw [hname] at h1; exact .inr (.inr h1)
        · exact .inl (hbad e' h1)
    · intro hor
      cases he : extract h fresh carrier with
      | error e => exact ⟨e, rfl⟩
      | ok p =>
        exfalso
        unfold extract at he
        cases hk : spanCtxFromKwargs h fresh (extractItems carrier) with
        | error e0 => rw [hk] at he; cases he
        | ok p2 =>
          obtain ⟨h2, b2⟩ := p2
          obtain ⟨⟨hr, hs⟩, segs, hi, -⟩ := spanCtxFromKwargs_ok (extractItems_nodup carrier) hk
          rcases hor with ⟨s, hs1, hs2⟩ | h1 | h1
          · have : PyDict.get? (extractItems carrier) kRpcId = some s := by rw [hname]; exact hs1
            rw [this, Option.getD_some, rpcInit_split_ok_iff] at hi
            obtain ⟨-, w, i, hw, hp⟩ := hi
            rw [pySplit_getLast] at hw
            cases hw
            rw [hs2] at hp; cases hp
          · rw [hname] at hr
            have : (PyDict.get? carrier (tracerPrefix ++ py "reference")).isSome = true := h1
            rw [hr] at this; cases this
          · rw [hname] at hs
            have : (PyDict.get? carrier (tracerPrefix ++ py "self")).isSome = true := h1
            rw [hs] at this; cases this
  refine ⟨?_, hiff, ?_⟩
  · intro e he
    unfold extract at he
    split at he
    · cases he
    · cases he; rfl
  · intro hno
    have hnone : ∀ k, PyDict.get? (extractItems carrier) k = none := by
      intro k
      rw [hname]
      have := hno k
      unfold PyDict.contains at this
      cases hx : PyDict.get? carrier (tracerPrefix ++ k) with
      | none => rfl
      | some v => rw [show py "rpc_trace_context." = tracerPrefix from rfl, hx] at this; cases this
    unfold extract
    cases hk : spanCtxFromKwargs h fresh (extractItems carrier) with
    | error e0 =>
      rcases spanCtxFromKwargs_error hk with h1 | h1 | ⟨e', h1⟩
      · rw [hnone] at h1; cases h1
      · rw [hnone] at h1; cases h1
      · rw [hnone, rpcInit_default] at h1; cases h1
    | ok p =>
      obtain ⟨h', b'⟩ := p
      obtain ⟨-, segs, hi, rfl, -, hg⟩ := spanCtxFromKwargs_ok (extractItems_nodup carrier) hk
      refine ⟨_, b', rfl, ?_⟩
      intro k
      rw [hnone, rpcInit_default] at hi
      cases hi
      rw [hg]
      show _ = if k = kTraceId then some fresh else if k = kRpcId then some (py "1") else none
      by_cases e1 : k = kTraceId
      · rw [if_pos e1, if_pos e1, hnone]; rfl
      · rw [if_neg e1, if_neg e1]
        by_cases e2 : k = kRpcId
        · rw [if_pos e2, if_pos e2]
          simp only [Option.map_some, BagVal.toStr, List.getElem?_concat_length, Option.getD_some]
          decide
        · rw [if_neg e2, if_neg e2, hnone]; rfl

/-- both outcomes occur -/
example : (∃ r, extract [] (py "f") [(py "rpc_trace_context.sofaRpcId", py "a.b.3")] = .ok r) ∧
    extract [] (py "f") [(py "rpc_trace_context.sofaRpcId", py "1.x")] = .error .invalidCarrier ∧
    extract [] (py "f") [(py "rpc_trace_context.self", py "1")] = .error .invalidCarrier :=
  ⟨⟨_, rfl⟩, by decide, by decide⟩

/-! ## C22 -/

/-- C22 (rpc ids round-trip through their string form): `RpcId(*str(id).split('.'))` succeeds and equals `id`
(same segments, and `==` says so), for every id the constructor makes from dot-free segments. -/
theorem C22_rpcid_roundtrip (args segs : List Seg) (hd : ∀ s, Seg.str s ∈ args → 46 ∉ s)
    (h : rpcInit args = .ok segs) :
    ∃ segs', rpcInit ((pySplit 46 (rpcStr segs)).map Seg.str) = .ok segs' ∧ rpcEq segs' segs = true ∧ segs' = segs := by
  refine ⟨segs, (rpcInit_ok hd h).roundtrip, ?_, rfl⟩
  simp only [rpcEq, bne_self_eq_false, Bool.false_eq_true, if_false, List.all_eq_true, beq_iff_eq]
  intro x hx
  exact mem_zip_self hx

/-- mixed int / str / numeric-string segments, negative last segment -/
example : rpcInit [.str (py "x"), .str (py "007"), .int 12, .str (py " -3 ")] =
    .ok [.str (py "x"), .int 7, .int 12, .int (-3)] ∧
    rpcStr [.str (py "x"), .int 7, .int 12, .int (-3)] = py "x.7.12.-3" := by decide

end Bolt
