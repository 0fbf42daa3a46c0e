import Verif.Proof.IpcSock
import Verif.Model.Setconf
import Verif.Props.NetlinkGet
/-!
C44: the list of interface names. C46: the sockets of userspace implementations. C47: which interface `set` and `setconf` modify.
C53: the interfaces of the kernel.
-/
namespace WG
open Spec

/-! ### C44 -/

/-- Adding names one after the other until one cannot be added (as both callers do). -/
def addAll (heap : Heap) : List CStr → StrList → Res (Int × StrList)
  | [], l => .ok (0, l)
  | s :: rest, l => (stringListAdd heap l s).bind fun (ret, l) => if ret < 0 then .ok (ret, l) else addAll heap rest l

/-- The list holds these names: `first\0second\0last\0\0` at the start of its allocation; no allocation without names. -/
def Content (l : StrList) (names : List CStr) : Prop :=
  if names = [] then l.buf = none else ∃ junk, l.buf = some (nameBuffer names ++ junk)

theorem Holds.content {l : StrList} {names : List CStr} (h : Holds l names) : Content l names := by
  cases h with
  | empty n => rfl
  | some names junk cap n h1 h2 h3 => rw [Content, if_neg h1]; exact ⟨junk, rfl⟩

theorem addAll_spec (heap : Heap) (hF : ∀ n e, heap.fail n = some e → 0 < e) : ∀ (names : List CStr) (l : StrList) (old : List CStr), Holds l old →
    (nameBuffer (old ++ names.filter (· ≠ []))).length < 2 ^ 61 →
    (∃ l', addAll heap names l = .ok (0, l') ∧ Holds l' (old ++ names.filter (· ≠ []))) ∨
    ∃ pre s post n e l', names = pre ++ s :: post ∧ heap.fail n = some e ∧ addAll heap names l = .ok (-(e : Int), l') ∧ Holds l' (old ++ pre.filter (· ≠ [])) := by
  intro names
  induction names with
  | nil => intro l old h _; exact .inl ⟨l, rfl, by simpa using h⟩
  | cons s rest ih =>
    intro l old h hsz
    rw [addAll]
    by_cases hs : s = []
    · subst hs
      rw [stringListAdd_nil, okb]
      simp only [Int.lt_irrefl, if_false]
      have hf : ([] :: rest : List CStr).filter (· ≠ []) = rest.filter (· ≠ []) := by simp
      rw [hf] at hsz ⊢
      rcases ih l old h hsz with h | ⟨pre, s, post, n, e, l', h1, h2, h3, h4⟩
      · exact .inl h
      · exact .inr ⟨[] :: pre, s, post, n, e, l', by rw [h1]; rfl, h2, h3, by simpa using h4⟩
    · have hf : ∀ t : List CStr, (s :: t).filter (· ≠ []) = [s] ++ t.filter (· ≠ []) := by intro t; simp [hs]
      rw [hf, ← List.append_assoc] at hsz ⊢
      have := nameBuffer_append_length (old ++ [s]) (rest.filter (· ≠ []))
      rcases stringListAdd_spec heap h s hs (by rw [← nameBuffer_snoc_length]; exact Nat.lt_of_le_of_lt this hsz) with ⟨l', e1, e2⟩ | ⟨e, e1, e2, e3⟩
      · rw [e1, okb]
        simp only [Int.lt_irrefl, if_false]
        rcases ih l' (old ++ [s]) e2 hsz with h | ⟨pre, s', post, n, e, l'', h1, h2, h3, h4⟩
        · exact .inl h
        · refine .inr ⟨s :: pre, s', post, n, e, l'', by rw [h1]; rfl, h2, h3, ?_⟩
          rw [hf, ← List.append_assoc]
          exact h4
      · rw [e2, okb]
        have := hF _ _ e1
        simp only
        rw [if_pos (by omega)]
        exact .inr ⟨[], s, rest, _, e, _, rfl, e1, rfl, by simpa using e3⟩

/-- C44. After adding any names, the buffer holds the nonempty ones in order, and every write was inside the allocation (`.ok`; the contents of
fresh memory do not matter). If memory cannot be had for one, adding ends with the error, and the names before it are still there. -/
theorem c44_names_added (heap : Heap) (hF : ∀ n e, heap.fail n = some e → 0 < e) (names : List CStr) (hsz : (nameBuffer (names.filter (· ≠ []))).length < 2 ^ 61) :
    (∃ l, addAll heap names {} = .ok (0, l) ∧ Content l (names.filter (· ≠ []))) ∨
    ∃ pre s post n e l, names = pre ++ s :: post ∧ heap.fail n = some e ∧ addAll heap names {} = .ok (-(e : Int), l) ∧ Content l (pre.filter (· ≠ [])) := by
  rcases addAll_spec heap hF names {} [] (.empty 0) hsz with ⟨l, h1, h2⟩ | ⟨pre, s, post, n, e, l, h1, h2, h3, h4⟩
  · exact .inl ⟨l, h1, h2.content⟩
  · exact .inr ⟨pre, s, post, n, e, l, h1, h2, h3, h4.content⟩

/-- C44. Walking the buffer visits exactly the names in order, and at each tells whether another follows, whatever lies behind the final NUL. -/
theorem c44_walk (names : List CStr) (hn : ∀ s ∈ names, IsName s) (junk : List UInt8) (fuel : Nat) (hf : names.length < fuel) :
    walkNames (nameBuffer names ++ junk) fuel 0 = .ok (withNext names) := by
  simpa using walkNames_spec names hn [] junk fuel hf

theorem withNext_names (names : List CStr) : (withNext names).map (·.1) = names := by
  induction names with
  | nil => rfl
  | cons n l ih =>
    cases l with
    | nil => rfl
    | cons m l => rw [withNext, List.map_cons, ih]

/-- C44. With memory for all names: an empty list, or one that can be walked. -/
theorem Content.walk {l : StrList} {names : List CStr} (h : Content l names) (hn : ∀ s ∈ names, IsName s) (fuel : Nat) (hf : names.length < fuel) :
    ∃ junk, l.buf.getD [0] = nameBuffer names ++ junk ∧ walkNames (l.buf.getD [0]) fuel 0 = .ok (withNext names) := by
  rw [Content] at h
  split at h
  · rename_i he
    subst he
    exact ⟨[], by rw [h]; rfl, by rw [h]; exact c44_walk [] (by simp) [] fuel hf⟩
  · obtain ⟨junk, h⟩ := h
    exact ⟨junk, by rw [h]; rfl, by rw [h]; exact c44_walk names hn junk fuel hf⟩

/-! ### C53 -/

/-- C53. The kernel's interfaces: the names of those whose kind is `wireguard`, in order, however the dump is cut into messages and datagrams; the
only error is lack of memory. A dump that is marked as interrupted ends the list where it is, and this is no error. -/
theorem c53_kernel_interfaces (heap : Heap) (hF : ∀ n e, heap.fail n = some e → 0 < e ∧ e ≠ 4) (env : LinkEnv) (h0 : env.err = none)
    (ds : List (List UInt8 × List UInt8)) (hr : env.recvs = ds.map fun d => .msg d.1 d.2) (hb : ∀ d ∈ ds, (d.1 ++ d.2).length < 2 ^ 30) (ms : List NlMsg)
    (hd : Dump env.seq env.portid (ds.map (·.1)) ms ∨ Interrupted env.seq env.portid (ds.map (·.1)) ms) (links : List Link)
    (hl : List.Forall₂ (fun m k => readLink m.body = some k) ms links) (hsz : (nameBuffer (wgNames links)).length < 2 ^ 61) :
    (∃ l, kernelList heap env {} = .ok (0, l) ∧ Content l (wgNames links)) ∨ ∃ n e l, heap.fail n = some e ∧ kernelList heap env {} = .ok (-(e : Int), l) := by
  rw [kernelList, h0]
  simp only [hr]
  rcases linkRun_dump heap hF env.seq env.portid ds ms hd hb links hl 0 {} [] (.empty 0) hsz with ⟨l, h1, h2⟩ | h
  · exact .inl ⟨l, h1, h2.content⟩
  · exact .inr h

theorem wgNames_names {ms : List NlMsg} {links : List Link} (h : List.Forall₂ (fun m k => readLink m.body = some k) ms links) : ∀ s ∈ wgNames links, IsName s := by
  induction h with
  | nil => intro s hs; cases hs
  | @cons m k ms ks h1 h2 ih =>
    intro s hs
    rw [wgNames_cons, List.mem_append] at hs
    rcases hs with hs | hs
    · have : s = k.name := by
        simp only [wgNames, List.filter_cons] at hs
        split at hs <;> simp_all
      subst this
      rw [readLink] at h1
      simp only [Option.bind_eq_some_iff, Option.map_eq_some_iff] at h1
      obtain ⟨l, -, n, ⟨d, -, hd⟩, kk, -, rfl⟩ := h1
      obtain ⟨-, h3, h4⟩ := readString_some hd
      exact ⟨h4, h3⟩
    · exact ih s hs

/-! ### C44: the whole list -/

theorem visit_names (env : SockEnv) (ents : List CStr) (h : ∀ e ∈ ents, (0 : UInt8) ∉ e) (tr : List SockEv) : ∀ s ∈ (visit env ents tr).1, IsName s := by
  intro s hs
  have := (visit_sublist env ents tr).subset hs
  rw [List.mem_filterMap] at this
  obtain ⟨e, he, hn⟩ := this
  obtain ⟨rfl, h2⟩ := sockName_some hn
  exact ⟨h2, fun h0 => h _ he (by simp [h0])⟩

/-- C44. `ipc_list_devices`: first the kernel's WireGuard interfaces, then the names `NAME.sock` in the socket directory for which something listens,
in the order of the directory (a missing directory is an empty one); as `first\0second\0last\0\0`, which the callers' loops walk. Only lack
of memory makes it fail. The directory and what listens are taken as unchanging during the call; see `c44_list_changing`. -/
theorem c44_list (heap : Heap) (hF : ∀ n e, heap.fail n = some e → 0 < e ∧ e ≠ 4) (link : LinkEnv) (h0 : link.err = none)
    (ds : List (List UInt8 × List UInt8)) (hr : link.recvs = ds.map fun d => .msg d.1 d.2) (hb : ∀ d ∈ ds, (d.1 ++ d.2).length < 2 ^ 30) (ms : List NlMsg)
    (hd : Dump link.seq link.portid (ds.map (·.1)) ms) (links : List Link) (hl : List.Forall₂ (fun m k => readLink m.body = some k) ms links)
    (env : SockEnv) (hs : Steady env) (ents : List CStr) (he : env.listDir [] (env.runstate ++ b!"/wireguard/") = .ok ents ∨
      (env.listDir [] (env.runstate ++ b!"/wireguard/") = .error 2 ∧ ents = []))
    (hents : ∀ e ∈ ents, (0 : UInt8) ∉ e ∧ c!"/" ∉ e) (live : CStr → Bool)
    (hlive : ∀ n, live n = true ↔ Live env ((socketPath env.runstate n).take 107))
    (hsz : (nameBuffer (wgNames links ++ (ents.filterMap sockName).filter live)).length < 2 ^ 61) (fuel : Nat)
    (hf : (wgNames links ++ (ents.filterMap sockName).filter live).length < fuel) :
    (∃ junk tr, ipcListDevices heap link env [] = .ok (some (nameBuffer (wgNames links ++ (ents.filterMap sockName).filter live) ++ junk), tr) ∧
      walkNames (nameBuffer (wgNames links ++ (ents.filterMap sockName).filter live) ++ junk) fuel 0 = .ok (withNext (wgNames links ++ (ents.filterMap sockName).filter live))) ∨
    ∃ n e tr, heap.fail n = some e ∧ ipcListDevices heap link env [] = .ok (none, tr) := by
  have hv : (visit env ents [SockEv.listDir (sockDir env)]).1 = (ents.filterMap sockName).filter live := by
    obtain ⟨p, hp, hv⟩ := visit_steady hs ents [SockEv.listDir (sockDir env)]
    rw [hv]
    apply List.filter_congr
    intro n hn
    rw [List.mem_filterMap] at hn
    obtain ⟨e, he, hn⟩ := hn
    obtain ⟨rfl, h2⟩ := sockName_some hn
    have hsl : c!"/" ∉ n := fun h => (hents _ he).2 (List.mem_append_left _ h)
    have hpn := hp n
    have hln := hlive n
    rw [show (socketPath env.runstate n).take 107 = sockPath env n from rfl] at hln
    rw [Bool.eq_iff_iff, hpn, hln]
    exact ⟨fun h => h.2, fun h => ⟨hsl, h⟩⟩
  have hn : ∀ s ∈ wgNames links ++ (ents.filterMap sockName).filter live, IsName s := by
    intro s h
    rw [List.mem_append] at h
    rcases h with h | h
    · exact wgNames_names hl s h
    · rw [← hv] at h
      exact visit_names env ents (fun e he => (hents e he).1) _ s h
  have hk : ListedOr heap (kernelList heap link {}) (wgNames links) := by
    rw [kernelList, h0]
    simp only [hr]
    have := linkRun_dump heap hF link.seq link.portid ds ms (.inl hd) hb links hl 0 {} [] (.empty 0) (by
      have := nameBuffer_append_length (wgNames links) ((ents.filterMap sockName).filter live)
      rw [List.nil_append]; omega)
    exact this
  rw [ipcListDevices]
  rcases hk with ⟨l, h1, h2⟩ | ⟨n, e, l, h1, h2⟩
  · rw [h1, okb]
    simp only [Int.lt_irrefl, if_false, userspaceList, List.nil_append]
    have hdone : ∀ l' tr, Holds l' (wgNames links ++ (ents.filterMap sockName).filter live) →
        (∃ junk tr', (Res.ok (some (l'.buf.getD [0]), tr) : Res (Option (List UInt8) × List SockEv)) = .ok (some (nameBuffer (wgNames links ++ (ents.filterMap sockName).filter live) ++ junk), tr') ∧
        walkNames (nameBuffer (wgNames links ++ (ents.filterMap sockName).filter live) ++ junk) fuel 0 = .ok (withNext (wgNames links ++ (ents.filterMap sockName).filter live))) := by
      intro l' tr h
      obtain ⟨junk, j1, -⟩ := h.content.walk hn fuel hf
      exact ⟨junk, tr, by rw [j1], c44_walk _ hn junk fuel hf⟩
    rcases he with he | ⟨he, rfl⟩
    · rw [show env.listDir [] (sockDir env) = .ok ents from he]
      simp only
      rcases userspaceLoop_spec heap env (fun n e h => (hF n e h).1) ents l (wgNames links) [.listDir (sockDir env)] h2 (by rw [hv]; exact hsz) with ⟨l', e1, e2⟩ | ⟨n, e, l', tr', e1, e2⟩
      · rw [e1, okb]
        simp only [Int.lt_irrefl, if_false]
        rw [hv] at e2
        exact .inl (hdone _ _ e2)
      · rw [e2, okb]
        have := (hF n e e1).1
        simp only
        rw [if_pos (by omega)]
        exact .inr ⟨n, e, _, e1, rfl⟩
    · rw [show env.listDir [] (sockDir env) = .error 2 from he]
      exact .inl (hdone _ _ (by simpa using h2))
  · rw [h2, okb]
    have := (hF n e h1).1
    simp only
    rw [if_pos (by omega)]
    exact .inr ⟨n, e, _, h1, rfl⟩

/-- C44. Whatever changes during the call: on success the names are the kernel's, then some of the entries `NAME.sock`, in order. -/
theorem c44_list_changing (heap : Heap) (hF : ∀ n e, heap.fail n = some e → 0 < e) (link : LinkEnv) (env : SockEnv) (tr : List SockEv)
    (l : StrList) (kernel : List CStr) (hk : Holds l kernel) (ents : List CStr) (he : env.listDir tr (env.runstate ++ b!"/wireguard/") = .ok ents)
    (hkl : kernelList heap link {} = .ok (0, l)) (hsz : (nameBuffer (kernel ++ ents.filterMap sockName)).length < 2 ^ 61) (buf : List UInt8) (tr' : List SockEv)
    (h : ipcListDevices heap link env tr = .ok (some buf, tr')) :
    ∃ found junk, List.Sublist found (ents.filterMap sockName) ∧ buf = nameBuffer (kernel ++ found) ++ junk := by
  rw [ipcListDevices, hkl, okb] at h
  simp only [Int.lt_irrefl, if_false, userspaceList] at h
  rw [show env.listDir tr (sockDir env) = .ok ents from he] at h
  simp only at h
  have hsub := visit_sublist env ents (tr ++ [.listDir (sockDir env)])
  have hlen : (nameBuffer (kernel ++ (visit env ents (tr ++ [.listDir (sockDir env)])).1)).length ≤ (nameBuffer (kernel ++ ents.filterMap sockName)).length := by
    rw [nameBuffer_length, nameBuffer_length]
    have : ∀ {a b : List CStr}, List.Sublist a b → (a.flatMap (· ++ [0])).length ≤ (b.flatMap (· ++ [0])).length := by
      intro a b h
      induction h with
      | slnil => exact Nat.le_refl _
      | cons a _ ih => simp only [List.flatMap_cons, List.length_append]; omega
      | cons_cons a _ ih => simp only [List.flatMap_cons, List.length_append]; omega
    have := this ((List.Sublist.refl kernel).append hsub)
    omega
  rcases userspaceLoop_spec heap env hF ents l kernel (tr ++ [.listDir (sockDir env)]) hk (by omega) with ⟨l', e1, e2⟩ | ⟨n, e, l', tr', e1, e2⟩
  · rw [e1, okb] at h
    simp only [Int.lt_irrefl, if_false] at h
    refine ⟨_, ?_, hsub, ?_⟩
    · exact if hc : kernel ++ (visit env ents (tr ++ [.listDir (sockDir env)])).1 = [] then [] else (l'.buf.getD []).drop (nameBuffer (kernel ++ (visit env ents (tr ++ [.listDir (sockDir env)])).1)).length
    · have hc := e2.content
      rw [Content] at hc
      have hb : l'.buf.getD [0] = buf := by injection h with h; exact (Option.some.inj (Prod.mk.inj h).1)
      split at hc
      · rename_i he
        rw [he, dif_pos rfl, ← hb, hc]; rfl
      · rename_i he
        obtain ⟨junk, hc⟩ := hc
        rw [dif_neg he, ← hb, hc]
        simp
  · rw [e2, okb] at h
    have := hF n e e1
    simp only at h
    rw [if_pos (by omega)] at h
    cases h

/-! ### C46 -/

/-- The path of a system call. -/
def SockEv.path : SockEv → CStr
  | .stat p => p
  | .connect p => p
  | .unlink p => p
  | .listDir p => p

/-- What has happened from `tr` to `tr'`: only at `path`; and a file was removed only just after it was a socket and refused a connection. -/
def Careful (env : SockEnv) (ok : CStr → Prop) (tr tr' : List SockEv) : Prop :=
  ∃ evs, tr' = tr ++ evs ∧ (∀ ev ∈ evs, ok ev.path) ∧ ∀ a p b, evs = a ++ .unlink p :: b →
    ∃ a0, a = a0 ++ [.stat p, .connect p] ∧ env.stat (tr ++ a0) p = .ok true ∧ env.connect (tr ++ a0 ++ [.stat p]) p = some 111

theorem Careful.refl (env : SockEnv) (ok : CStr → Prop) (tr : List SockEv) : Careful env ok tr tr := ⟨[], by simp, by simp, by simp⟩

theorem Careful.trans {env : SockEnv} {ok : CStr → Prop} {tr tr' tr'' : List SockEv} (h : Careful env ok tr tr') (h' : Careful env ok tr' tr'') : Careful env ok tr tr'' := by
  obtain ⟨e1, rfl, h1, h2⟩ := h
  obtain ⟨e2, rfl, h3, h4⟩ := h'
  refine ⟨e1 ++ e2, by simp, fun ev h => (List.mem_append.1 h).elim (h1 ev) (h3 ev), ?_⟩
  intro a p b h
  rcases List.append_eq_append_iff.1 h with ⟨c, rfl, hc⟩ | ⟨c, hc, hb⟩
  · obtain ⟨a0, rfl, h5, h6⟩ := h4 c p b hc
    exact ⟨e1 ++ a0, by simp, by simpa using h5, by simpa using h6⟩
  · cases c with
    | nil =>
      obtain ⟨a0, h7, h5, h6⟩ := h4 [] p b (by simpa using hb.symm)
      simp at h7
    | cons x c =>
      have hx : x = .unlink p := by injection hb with hb _; exact hb.symm
      subst hx
      exact h2 a p c hc

theorem Careful.mono {env : SockEnv} {ok ok' : CStr → Prop} (hm : ∀ p, ok p → ok' p) {tr tr' : List SockEv} (h : Careful env ok tr tr') : Careful env ok' tr tr' := by
  obtain ⟨e1, rfl, h1, h2⟩ := h
  exact ⟨e1, rfl, fun ev h => hm _ (h1 ev h), h2⟩

theorem careful_stat (env : SockEnv) (p : CStr) (tr : List SockEv) : Careful env (· = p) tr (tr ++ [.stat p]) := by
  refine ⟨[.stat p], rfl, by simp [SockEv.path], ?_⟩
  intro a q b h
  have := congrArg (fun l => SockEv.unlink q ∈ l) h
  simp at this

theorem careful_connect (env : SockEnv) (p : CStr) (tr : List SockEv) : Careful env (· = p) tr (tr ++ [.stat p] ++ [.connect p]) := by
  refine ⟨[.stat p, .connect p], by simp, by simp [SockEv.path], ?_⟩
  intro a q b h
  have := congrArg (fun l => SockEv.unlink q ∈ l) h
  simp at this

theorem careful_unlink (env : SockEnv) (p : CStr) (tr : List SockEv) (h1 : env.stat tr p = .ok true) (h2 : env.connect (tr ++ [.stat p]) p = some 111) :
    Careful env (· = p) tr (tr ++ [.stat p] ++ [.connect p] ++ [.unlink p]) := by
  refine ⟨[.stat p, .connect p, .unlink p], by simp, by simp [SockEv.path], ?_⟩
  intro a q b h
  match a, h with
  | [], h => simp at h
  | [x], h => simp at h
  | [x, y], h =>
    simp only [List.cons_append, List.nil_append, List.cons.injEq, SockEv.unlink.injEq] at h
    obtain ⟨rfl, rfl, rfl, rfl⟩ := h
    exact ⟨[], rfl, by simpa using h1, by simpa using h2⟩
  | x :: y :: z :: a, h =>
    have := congrArg List.length h
    simp at this

/-- The path for a name: only for names without `/`; cut to what fits in a socket address. -/
def PathFor (env : SockEnv) (iface : CStr) (p : CStr) : Prop := c!"/" ∉ iface ∧ p = (socketPath env.runstate iface).take 107

theorem hasInterface_careful (env : SockEnv) (iface : CStr) (tr : List SockEv) : Careful env (PathFor env iface) tr (hasInterface env iface tr).2 := by
  rw [hasInterface]
  by_cases hc : c!"/" ∈ iface
  · simp only [List.contains_iff_mem, hc, if_true]
    exact .refl ..
  · simp only [List.contains_iff_mem, hc, if_false]
    refine Careful.mono (ok := (· = sockPath env iface)) (fun p hp => ⟨hc, hp⟩) ?_
    cases h1 : env.stat tr (sockPath env iface) with
    | error e => exact careful_stat ..
    | ok b =>
      cases b with
      | false => exact careful_stat ..
      | true =>
        simp only
        cases env.socket (tr ++ [.stat (sockPath env iface)]) with
        | some e => exact careful_stat ..
        | none =>
          simp only
          split
          · rename_i h2; exact careful_unlink env _ tr h1 h2
          · exact careful_connect ..

theorem interfaceFile_careful (env : SockEnv) (iface : CStr) (tr : List SockEv) : Careful env (PathFor env iface) tr (interfaceFile env iface tr).2 := by
  rw [interfaceFile]
  by_cases hc : c!"/" ∈ iface
  · simp only [List.contains_iff_mem, hc, if_true]
    exact .refl ..
  · simp only [List.contains_iff_mem, hc, if_false]
    refine Careful.mono (ok := (· = sockPath env iface)) (fun p hp => ⟨hc, hp⟩) ?_
    cases h1 : env.stat tr (sockPath env iface) with
    | error e => exact careful_stat ..
    | ok b =>
      cases b with
      | false => exact careful_stat ..
      | true =>
        simp only
        cases env.socket (tr ++ [.stat (sockPath env iface)]) with
        | some e => exact careful_stat ..
        | none =>
          simp only
          cases h2 : env.connect (tr ++ [.stat (sockPath env iface)]) (sockPath env iface) with
          | none => exact careful_connect ..
          | some e =>
            simp only
            split
            · rename_i h3; subst h3; exact careful_unlink env _ tr h1 h2
            · exact careful_connect ..

/-- C46. Reading or setting the interface `iface` touches only the path RUNSTATEDIR/wireguard/IFACE.sock (cut to 107 bytes), none at all if
the name contains `/`, and removes it only if just before it was a socket to which a connection was refused; whatever the system answers. The
socket used, if any, is that one. -/
theorem c46_paths (env : SockEnv) (iface : CStr) (d : Device) (tr : List SockEv) :
    Careful env (PathFor env iface) tr (ipcGetDevice env iface tr).2 ∧ Careful env (PathFor env d.name) tr (ipcSetDevice env d tr).2 ∧
    (∀ p, (ipcGetDevice env iface tr).1 = .socket p → PathFor env iface p) ∧ (∀ p, (ipcSetDevice env d tr).1 = .socket p → PathFor env d.name p) ∧
    (∀ n, (ipcGetDevice env iface tr).1 = .kernel n → n = iface) ∧ (∀ d', (ipcSetDevice env d tr).1 = .kernel d' → d' = d) := by
  have hsl : ∀ iface tr, (hasInterface env iface tr).1 = true → c!"/" ∉ iface := by
    intro iface tr h hc
    rw [hasInterface] at h
    simp [hc] at h
  have key : ∀ (iface : CStr), (∃ tr1, hasInterface env iface tr = (false, tr1) ∧ Careful env (PathFor env iface) tr tr1) ∨
      (∃ tr1, hasInterface env iface tr = (true, tr1) ∧ c!"/" ∉ iface ∧ Careful env (PathFor env iface) tr (interfaceFile env iface tr1).2) := by
    intro iface
    have h1 := hasInterface_careful env iface tr
    have h2 := hsl iface tr
    rcases hh : hasInterface env iface tr with ⟨_ | _, tr1⟩
    · rw [hh] at h1; exact .inl ⟨tr1, rfl, h1⟩
    · rw [hh] at h1 h2; exact .inr ⟨tr1, rfl, h2 rfl, h1.trans (interfaceFile_careful env iface tr1)⟩
  refine ⟨?_, ?_, ?_, ?_, ?_, ?_⟩
  · rw [ipcGetDevice]
    rcases key iface with ⟨tr1, h1, h2⟩ | ⟨tr1, h1, h2, h3⟩
    · rw [h1]; exact h2
    · rw [h1]; rcases hf : interfaceFile env iface tr1 with ⟨_ | _, tr2⟩ <;> (rw [hf] at h3; simp only [hf]; exact h3)
  · rw [ipcSetDevice]
    rcases key d.name with ⟨tr1, h1, h2⟩ | ⟨tr1, h1, h2, h3⟩
    · rw [h1]; exact h2
    · rw [h1]; rcases hf : interfaceFile env d.name tr1 with ⟨_ | _, tr2⟩ <;> (rw [hf] at h3; simp only [hf]; exact h3)
  · intro p
    rw [ipcGetDevice]
    rcases key iface with ⟨tr1, h1, h2⟩ | ⟨tr1, h1, h2, h3⟩
    · rw [h1]; simp
    · rw [h1]; rcases hf : interfaceFile env iface tr1 with ⟨_ | _, tr2⟩ <;> simp only [hf]
      · intro h; simp only [Reached.socket.injEq] at h; exact ⟨h2, h.symm⟩
      · simp
  · intro p
    rw [ipcSetDevice]
    rcases key d.name with ⟨tr1, h1, h2⟩ | ⟨tr1, h1, h2, h3⟩
    · rw [h1]; simp
    · rw [h1]; rcases hf : interfaceFile env d.name tr1 with ⟨_ | _, tr2⟩ <;> simp only [hf]
      · intro h; simp only [Reached.socket.injEq] at h; exact ⟨h2, h.symm⟩
      · simp
  · intro n
    rw [ipcGetDevice]
    rcases key iface with ⟨tr1, h1, h2⟩ | ⟨tr1, h1, h2, h3⟩
    · rw [h1]; intro h; simpa using h.symm
    · rw [h1]; rcases hf : interfaceFile env iface tr1 with ⟨_ | _, tr2⟩ <;> simp [hf]
  · intro n
    rw [ipcSetDevice]
    rcases key d.name with ⟨tr1, h1, h2⟩ | ⟨tr1, h1, h2, h3⟩
    · rw [h1]; intro h; simpa using h.symm
    · rw [h1]; rcases hf : interfaceFile env d.name tr1 with ⟨_ | _, tr2⟩ <;> simp [hf]

/-- C46. Such a path is the exact one when it fits. -/
theorem c46_exact (env : SockEnv) (iface p : CStr) (h : PathFor env iface p) (hl : (socketPath env.runstate iface).length ≤ 107) : p = socketPath env.runstate iface := by
  rw [h.2, List.take_of_length_le hl]

/-- C46. It is always a file directly in the directory: the path is the directory, `/`, and something without `/` that is not `.` or `..` (if the
directory's path leaves room). -/
theorem c46_inside (env : SockEnv) (iface p : CStr) (h : PathFor env iface p) (hl : (env.runstate ++ b!"/wireguard/").length ≤ 104) :
    ∃ base, p = env.runstate ++ b!"/wireguard/" ++ base ∧ c!"/" ∉ base ∧ base ≠ b!"." ∧ base ≠ b!".." ∧ base ≠ [] := by
  obtain ⟨h1, rfl⟩ := h
  refine ⟨(iface ++ b!".sock").take (107 - (env.runstate ++ b!"/wireguard/").length), ?_, ?_, ?_, ?_, ?_⟩
  · rw [socketPath, List.append_assoc, List.take_append, List.take_of_length_le (by omega)]
  · intro h
    have := List.mem_of_mem_take h
    rw [List.mem_append] at this
    rcases this with h | h
    · exact h1 h
    · revert h; decide
  all_goals
    intro h
    have := congrArg List.length h
    simp [List.length_take] at this
    simp at hl
    omega

/-- C46 is not more: a name whose path does not fit is cut, so that two different names reach the same socket, and its name does not end in `.sock`. -/
theorem c46_counterexample_truncated :
    ∃ (env : SockEnv) (a b : CStr), a ≠ b ∧ c!"/" ∉ a ∧ c!"/" ∉ b ∧
      (ipcGetDevice env a []).1 = .socket ((socketPath env.runstate a).take 107) ∧ (ipcGetDevice env b []).1 = .socket ((socketPath env.runstate a).take 107) ∧
      ¬ b!".sock" <:+ (socketPath env.runstate a).take 107 := by
  refine ⟨⟨b!"/var/run", fun _ _ => .ok true, fun _ => none, fun _ _ => none, fun _ _ => none, fun _ => none, fun _ _ => .ok []⟩,
    List.replicate 90 c!"a", List.replicate 91 c!"a", by decide, by decide, by decide, by decide, by decide, by decide⟩

/-- C46, C44. What is asked, when the answers do not change between the questions: the socket if something listens there (an error if the connection fails
for another reason than that nothing listens), otherwise the kernel. -/
theorem c46_choice (env : SockEnv) (hs : Steady env) (hf : ∀ tr, env.fdopen tr = none) (iface : CStr) (tr : List SockEv) :
    (ipcGetDevice env iface tr).1 =
      if c!"/" ∉ iface ∧ env.stat [] ((socketPath env.runstate iface).take 107) = .ok true ∧ env.socket [] = none ∧ env.connect [] ((socketPath env.runstate iface).take 107) ≠ some 111
      then (match env.connect [] ((socketPath env.runstate iface).take 107) with
        | none => .socket ((socketPath env.runstate iface).take 107)
        | some e => .noSocket e)
      else .kernel iface := by
  have h := hasInterface_steady hs iface tr
  have hp : (socketPath env.runstate iface).take 107 = sockPath env iface := rfl
  rw [hp]
  rw [Live] at h
  rw [ipcGetDevice]
  rcases hh : hasInterface env iface tr with ⟨_ | _, tr1⟩
  · rw [hh] at h
    rw [if_neg (fun e => by have := h.2 e; simp at this)]
  · rw [hh] at h
    have h2 := h.1 rfl
    rw [if_pos h2]
    obtain ⟨h3, h4, h5, h6⟩ := h2
    obtain ⟨s1, s2, s3⟩ := hs
    have hi : (interfaceFile env iface tr1).1 = env.connect [] (sockPath env iface) := by
      rw [interfaceFile]
      simp only [List.contains_iff_mem, h3, if_false, s1 tr1, h4, s2 (tr1 ++ _), h5, s3 (tr1 ++ _)]
      cases hc : env.connect [] (sockPath env iface) with
      | none => exact hf _
      | some e =>
        simp only
        rw [if_neg (by rintro rfl; exact h6 hc)]
    simp only
    rcases hf : interfaceFile env iface tr1 with ⟨r, tr2⟩
    rw [hf] at hi
    simp only at hi
    subst hi
    cases env.connect [] (sockPath env iface) <;> rfl

/-! ### C47 -/

theorem syncPeers_name (sort : List PubkeyOrigin → List PubkeyOrigin) (a b : Device) : (syncPeers sort a b).name = a.name := by
  unfold syncPeers; rfl

/-- The interface an access is to. -/
def IpcCall.target : IpcCall → CStr
  | .get n => n
  | .set d => d.name

/-- C47. `set`, `setconf`, `addconf` and `syncconf` read and modify only the interface whose name is the first 15 bytes of their argument. -/
theorem c47_target (env : Env) (sort : List PubkeyOrigin → List PubkeyOrigin) (ipc : Ipc) (cmd iface : CStr) (rest : List CStr) :
    (∀ c ∈ (setMain env ipc (cmd :: iface :: rest)).calls, c.target = iface.take 15) ∧
    (∀ c ∈ (setconfMain env sort ipc (cmd :: iface :: rest)).calls, c.target = iface.take 15) := by
  have hsend : ∀ (d : Device), d.name = iface.take 15 → ∀ c ∈ (sendDevice ipc d).calls, c.target = iface.take 15 := by
    intro d hd c hc
    rw [sendDevice] at hc
    split at hc <;> (simp only [List.mem_singleton] at hc; subst hc; exact hd)
  constructor
  · intro c hc
    cases rest with
    | nil => simp [setMain] at hc
    | cons a rest =>
      rw [setMain] at hc
      split at hc <;> try (simp at hc; done)
      exact hsend _ rfl c hc
  · intro c hc
    match rest, hc with
    | [], hc => simp [setconfMain] at hc
    | [path], hc =>
      rw [setconfMain] at hc
      split at hc <;> try (simp at hc; done)
      rename_i d _
      simp only at hc
      split at hc
      · rw [syncConf] at hc
        simp only [copyName] at hc
        have hget : ∀ c : IpcCall, c ∈ [IpcCall.get (iface.take 15)] → c.target = iface.take 15 := by
          intro c hc; simp only [List.mem_singleton] at hc; subst hc; rfl
        split at hc
        · rename_i heq
          split at heq
          · simp only [Prod.mk.injEq, Res.ok.injEq] at heq
            obtain ⟨rfl, rfl⟩ := heq
            exact hsend _ rfl c (by simpa using hc)
          · split at heq
            · split at heq
              · simp only [Prod.mk.injEq, Res.ok.injEq] at heq
                obtain ⟨rfl, rfl⟩ := heq
                rw [List.mem_append] at hc
                rcases hc with hc | hc
                · exact hget c hc
                · exact hsend _ rfl c hc
              · simp only [Prod.mk.injEq, Res.ok.injEq] at heq
                obtain ⟨rfl, rfl⟩ := heq
                rw [List.mem_append] at hc
                rcases hc with hc | hc
                · exact hget c hc
                · exact hsend _ (syncPeers_name _ _ _) c hc
            · simp at heq
            · simp at heq
        · rename_i heq
          split at heq
          · simp at heq
          · split at heq
            · split at heq <;> simp at heq
            · simp only [Prod.mk.injEq, true_and] at heq
              subst heq
              exact hget c hc
            · simp at heq
        · rename_i heq
          split at heq
          · simp only [Prod.mk.injEq] at heq
            obtain ⟨rfl, rfl⟩ := heq
            simp at hc
          · split at heq
            · split at heq <;>
              · simp only [Prod.mk.injEq] at heq
                obtain ⟨rfl, rfl⟩ := heq
                exact hget c hc
            · simp only [Prod.mk.injEq] at heq
              obtain ⟨rfl, rfl⟩ := heq
              exact hget c hc
            · simp only [Prod.mk.injEq] at heq
              obtain ⟨rfl, rfl⟩ := heq
              exact hget c hc
      · exact hsend _ rfl c hc
    | _ :: _ :: _, hc => simp [setconfMain] at hc

/-- C47. So a name of at most 15 bytes is the interface's. -/
theorem c47_named (env : Env) (sort : List PubkeyOrigin → List PubkeyOrigin) (ipc : Ipc) (cmd iface : CStr) (rest : List CStr) (h : iface.length ≤ 15) :
    (∀ c ∈ (setMain env ipc (cmd :: iface :: rest)).calls, c.target = iface) ∧ (∀ c ∈ (setconfMain env sort ipc (cmd :: iface :: rest)).calls, c.target = iface) := by
  have := c47_target env sort ipc cmd iface rest
  rwa [List.take_of_length_le h] at this

/-- C47 is not more: with a longer name, another interface is modified; reading it from the kernel is refused (ENAMETOOLONG is 36). -/
theorem c47_counterexample_long_name (att : Nat → Attempt) (fuel : Nat) :
    (setMain stdEnv ⟨fun _ => (0, none), fun _ => 0⟩ [b!"set", b!"abcdefghijklmnop", b!"fwmark", b!"off"]).calls.map IpcCall.target = [b!"abcdefghijklmno"] ∧
    kernelGet b!"abcdefghijklmnop" att (fuel + 1) 0 = .ok (-36, none) :=
  ⟨by decide +kernel, by rw [kernelGet]; rfl⟩

/-! ### Examples -/

/-- Memory that never fails; fresh bytes are 0xAA. -/
def goodHeap : Heap := ⟨fun _ => none, fun _ _ => 0xAA⟩

example : ∃ l, addAll goodHeap [b!"wg0", [], b!"tun1", b!"x"] {} = .ok (0, l) ∧ Content l [b!"wg0", b!"tun1", b!"x"] ∧ l.reallocs = 3 := by
  have h : addAll goodHeap [b!"wg0", [], b!"tun1", b!"x"] {} = .ok (0, ⟨some (nameBuffer [b!"wg0", b!"tun1", b!"x"] ++ List.replicate 8 0xAA), 11, 20, 3⟩) := by decide +kernel
  exact ⟨_, h, ⟨_, rfl⟩, rfl⟩

/-- Memory that fails the second time (ENOMEM is 12). -/
example : ∃ l, addAll ⟨fun n => if n = 1 then some 12 else none, fun _ _ => 7⟩ [b!"wg0", b!"tun1", b!"x"] {} = .ok (-12, l) ∧ Content l [b!"wg0"] := by
  have h : addAll ⟨fun n => if n = 1 then some 12 else none, fun _ _ => 7⟩ [b!"wg0", b!"tun1", b!"x"] {} = .ok (-12, ⟨some (nameBuffer [b!"wg0"]), 4, 5, 2⟩) := by decide +kernel
  exact ⟨_, h, ⟨[], by simp⟩⟩

example : withNext [b!"wg0", b!"tun1"] = [(b!"wg0", true), (b!"tun1", false)] := rfl

/-- The message about an interface. -/
def linkMsg (name : CStr) (kind : Option CStr) : List UInt8 :=
  dumpMsg 16 2 (List.replicate 16 1 ++ encAttrs ([(3, name ++ [0]), (4, u32b 1500)] ++ (match kind with | none => [] | some k => [(18, encAttrs [(1, k ++ [0])])])))

/-- Four interfaces in two datagrams. -/
def linkFirst : List UInt8 := linkMsg b!"lo" none ++ linkMsg b!"wg0" (some b!"wireguard")
def linkSecond : List UInt8 := linkMsg b!"br0" (some b!"bridge") ++ linkMsg b!"wg1" (some b!"wireguard") ++ dumpDone

def linkNl (name : CStr) (kind : Option CStr) : NlMsg := ⟨16, 2, 5, 77, (linkMsg name kind).drop 16⟩

def linkMs : List NlMsg := [linkNl b!"lo" none, linkNl b!"wg0" (some b!"wireguard"), linkNl b!"br0" (some b!"bridge"), linkNl b!"wg1" (some b!"wireguard")]
def linkKs : List Link := [⟨b!"lo", none⟩, ⟨b!"wg0", some b!"wireguard"⟩, ⟨b!"br0", some b!"bridge"⟩, ⟨b!"wg1", some b!"wireguard"⟩]

theorem linkDump : Dump 5 77 [linkFirst, linkSecond] linkMs :=
  .more linkFirst _ [linkNl b!"lo" none, linkNl b!"wg0" (some b!"wireguard")] [linkNl b!"br0" (some b!"bridge"), linkNl b!"wg1" (some b!"wireguard")]
    (by decide +kernel) (by simp) (by decide +kernel)
    (.last linkSecond [] _ [] ⟨3, 2, 5, 77, [0, 0, 0, 0]⟩ (by decide +kernel) (by decide +kernel) (by decide +kernel))

theorem linkRead : List.Forall₂ (fun m k => readLink m.body = some k) linkMs linkKs :=
  .cons (by decide +kernel) (.cons (by decide +kernel) (.cons (by decide +kernel) (.cons (by decide +kernel) .nil)))

def linkEnv : LinkEnv := { seq := 5, portid := 77, recvs := [.msg linkFirst [1, 2, 3], .msg linkSecond []] }

example : wgNames linkKs = [b!"wg0", b!"wg1"] := by decide

/-- The kernel's list of that dump. -/
example : ∃ l, kernelList goodHeap linkEnv {} = .ok (0, l) ∧ Content l [b!"wg0", b!"wg1"] := by
  rcases c53_kernel_interfaces goodHeap (by simp [goodHeap]) linkEnv rfl [(linkFirst, [1, 2, 3]), (linkSecond, [])] rfl (by decide +kernel) linkMs (.inl linkDump) linkKs linkRead
    (by decide +kernel) with h | ⟨n, e, l, h, -⟩
  · exact h
  · cases h

/-- A directory with two sockets, of which nothing listens at the second, and other files. -/
def sockEnv : SockEnv where
  runstate := b!"/var/run"
  stat _ _ := .ok true
  socket _ := none
  connect _ p := if p = b!"/var/run/wireguard/old.sock" then some 111 else none
  unlink _ _ := none
  fdopen _ := none
  listDir _ _ := .ok [b!".", b!"..", b!".sock", b!"tun0.sock", b!"old.sock", b!"notes"]

theorem sockEnv_steady : Steady sockEnv := ⟨fun _ => rfl, fun _ => rfl, fun _ => rfl⟩

example : ∃ junk tr, ipcListDevices goodHeap linkEnv sockEnv [] = .ok (some (nameBuffer [b!"wg0", b!"wg1", b!"tun0"] ++ junk), tr) := by
  rcases c44_list goodHeap (by simp [goodHeap]) linkEnv rfl [(linkFirst, [1, 2, 3]), (linkSecond, [])] rfl (by decide +kernel) linkMs linkDump linkKs linkRead sockEnv sockEnv_steady
    [b!".", b!"..", b!".sock", b!"tun0.sock", b!"old.sock", b!"notes"] (.inl rfl) (by decide) (fun n => decide ((socketPath b!"/var/run" n).take 107 ≠ b!"/var/run/wireguard/old.sock"))
    (fun n => by simp [Live, sockEnv]) (by decide +kernel) 10 (by decide +kernel) with ⟨junk, tr, h, -⟩ | ⟨n, e, tr, h, -⟩
  · exact ⟨junk, tr, h⟩
  · cases h

/-- A dead socket is removed, and then the kernel is asked. -/
example : ipcGetDevice sockEnv b!"old" [] =
    (.kernel b!"old", [.stat b!"/var/run/wireguard/old.sock", .connect b!"/var/run/wireguard/old.sock", .unlink b!"/var/run/wireguard/old.sock"]) := by decide
example : (ipcGetDevice sockEnv b!"tun0" []).1 = .socket b!"/var/run/wireguard/tun0.sock" := by decide
example : (ipcGetDevice sockEnv b!"../../etc/x" []) = (.kernel b!"../../etc/x", []) := by decide
example : PathFor sockEnv b!"tun0" b!"/var/run/wireguard/tun0.sock" ∧ (socketPath sockEnv.runstate b!"tun0").length ≤ 107 ∧ (sockEnv.runstate ++ b!"/wireguard/").length ≤ 104 :=
  ⟨⟨by decide, by decide⟩, by decide, by decide⟩

/-- C53 is not more: an error the kernel reports at the end of its dump (here -ENOMEM) is not noticed, and what was received before is taken as the whole list. -/
theorem c53_counterexample_error_ignored :
    ∃ l, kernelList goodHeap { seq := 5, portid := 77, recvs := [.msg (linkMsg b!"wg0" (some b!"wireguard") ++ dumpMsg 3 2 [244, 255, 255, 255]) []] } {} = .ok (0, l) ∧
      Content l [b!"wg0"] := by
  have h : kernelList goodHeap { seq := 5, portid := 77, recvs := [.msg (linkMsg b!"wg0" (some b!"wireguard") ++ dumpMsg 3 2 [244, 255, 255, 255]) []] } {} =
      .ok (0, ⟨some (nameBuffer [b!"wg0"]), 4, 5, 1⟩) := by decide +kernel
  exact ⟨_, h, ⟨[], by simp⟩⟩

/-- C53 is not more: strings are not checked. A kind that is not ended by a NUL is read past the end of what was received. -/
theorem c53_counterexample_unterminated_kind :
    kernelList goodHeap { seq := 5, portid := 77, recvs := [.msg (dumpMsg 16 2 (List.replicate 16 1 ++ encAttrs [(18, encAttrs [(1, b!"wire")])])) []] } {} = .ub := by
  decide +kernel

end WG
