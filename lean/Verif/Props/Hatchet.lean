import Verif.Spec.Hatchet
import Verif.Props.QuickRun
/-! C101: wg-quick with contrib/dns-hatchet. -/
namespace WG
open Spec Spec.Quick Spec.Hatchet Quick Quick.Hatchet

namespace HatchetProof

theorem call_ok {a : Call} {w : World} {s : St} {r : Reply} {s' : St} (h : call a w s = (.ok r, s')) :
    r = w s.hist a ∧ r.sig = false ∧ s' = { s with hist := s.hist ++ [(a, r)] } := by
  unfold call at h
  by_cases hs : (w s.hist a).sig = true
  · rw [if_pos hs] at h; cases h
  · rw [if_neg hs] at h
    cases h
    exact ⟨rfl, by simpa using hs, rfl⟩

theorem bind_ok {m : Sh α} {f : α → Sh β} {w : World} {s s' : St} {b : β} (h : m.bind f w s = (.ok b, s')) :
    ∃ a s1, m w s = (.ok a, s1) ∧ f a w s1 = (.ok b, s') := by
  unfold Sh.bind at h
  rcases e : m w s with ⟨_ | _ | _ | _, s1⟩ <;> rw [e] at h
  · exact ⟨_, _, rfl, h⟩
  all_goals cases h

theorem run_ok {a : Call} {w : World} {s s' : St} (h : run true a w s = (.ok (), s')) :
    ∃ r, r.status = 0 ∧ s' = { s with hist := s.hist ++ [(a, r)] } := by
  obtain ⟨r, s1, h1, h2⟩ := bind_ok h
  obtain ⟨-, -, rfl⟩ := call_ok h1
  by_cases hr : r.status = 0
  · rw [if_neg (by simp [hr])] at h2
    cases h2
    exact ⟨r, hr, rfl⟩
  · rw [if_pos (by simp [hr])] at h2
    cases h2

theorem query_effect (d : Dns) (argv : List CStr) (r : Reply) : effect d (.query argv, r) = d := by
  unfold effect; split <;> rfl

theorem after_snoc (d : Dns) (h : List Ev) (e : Ev) : d.after (h ++ [e]) = effect (d.after h) e := by simp [Dns.after]

theorem open_ok {w : World} {s s' : St} {o : Bool} (h : isOpenresolv w s = (.ok o, s')) :
    (∀ d : Dns, d.after s'.hist = d.after s.hist) ∧ (o = true ↔ b!"openresolv " <+: chomp (w s.hist (.query [b!"resolvconf", b!"--version"])).out) ∧
    s'.haveDns = s.haveDns := by
  obtain ⟨r, s1, h1, h2⟩ := bind_ok h
  obtain ⟨rfl, -, rfl⟩ := call_ok h1
  cases h2
  refine ⟨fun d => ?_, List.isPrefixOf_iff_prefix, rfl⟩
  rw [after_snoc, query_effect]

end HatchetProof
open HatchetProof

/-- What is mounted for the interface. -/
def mountedText (c : Cfg) : List UInt8 := header c.iface ++ resolvLines c.opts

namespace HatchetProof

theorem eff_add (d : Dns) (c : Cfg) (r : Reply) (h : r.status = 0) :
    effect d (addRecord c, r) = { d with records := (c.iface, resolvLines c.opts) :: d.records.filter (·.1 ≠ c.iface) } := by
  rw [← resolvText_eq]
  simp [effect, addRecord, h]

theorem eff_mount (d : Dns) (c : Cfg) (r : Reply) (h : r.status = 0) : effect d (mountOver c, r) = { d with mounts := mountedText c :: d.mounts } := by
  unfold mountedText
  rw [← resolvText_eq]
  simp [effect, mountOver, h]

theorem eff_touch (d : Dns) (r : Reply) (h : r.status = 0) : effect d (touchFile, r) = { d with file := some (d.file.getD []) } := by
  simp [effect, touchFile, h]

theorem eff_umount (d : Dns) (r : Reply) (h : r.status = 0) : effect d (umountFile, r) = { d with mounts := d.mounts.tail } := by
  simp [effect, umountFile, h]

theorem eff_delete (d : Dns) (c : Cfg) (r : Reply) (h : r.status = 0) : effect d (deleteRecord c, r) = { d with records := d.records.filter (·.1 ≠ c.iface) } := by
  simp [effect, deleteRecord, h]

theorem eff_fail (d : Dns) (a : Call) (r : Reply) (h : r.status ≠ 0) : effect d (a, r) = d := by
  unfold effect; rw [if_pos h]

end HatchetProof

/-- The file itself is as before, or there was none and now it is empty. -/
def SameFile (d d' : Dns) : Prop := d'.file = d.file ∨ (d.file = none ∧ d'.file = some [])

theorem SameFile.trans {a b c : Dns} (h1 : SameFile a b) (h2 : SameFile b c) : SameFile a c := by
  unfold SameFile at *
  rcases h1 with h1 | ⟨h1, h1'⟩ <;> rcases h2 with h2 | ⟨h2, h2'⟩
  · exact .inl (h2.trans h1)
  · exact .inr ⟨by rw [← h1]; exact h2, h2'⟩
  · exact .inr ⟨h1, by rw [h2]; exact h1'⟩
  · rw [h1'] at h2; cases h2

/-- The version of resolvconf that `set_dns` and `unset_dns` are told is that of openresolv. -/
def SaysOpenresolv (w : World) (h : List Ev) : Prop := b!"openresolv " <+: captured (w h (.query [b!"resolvconf", b!"--version"])).out

/-- C101. `set_dns` with servers, when it reaches its end: resolvconf has them under the name of the interface, if it is openresolv; otherwise they are mounted over `/etc/resolv.conf`,
for everyone to read. -/
theorem c101_set (c : Cfg) (hd : c.opts.dns ≠ []) (w : World) (s s' : St) (h : Hatchet.setDns c w s = (.ok (), s')) (d : Dns) :
    s'.haveDns = true ∧
    (SaysOpenresolv w s.hist → d.after s'.hist =
      { d.after s.hist with records := (c.iface, resolvLines c.opts) :: (d.after s.hist).records.filter (·.1 ≠ c.iface) }) ∧
    (¬ SaysOpenresolv w s.hist → (d.after s'.hist).mounts = mountedText c :: (d.after s.hist).mounts ∧ (d.after s'.hist).visible = some (mountedText c) ∧
      (d.after s'.hist).records = (d.after s.hist).records ∧ SameFile (d.after s.hist) (d.after s'.hist)) := by
  unfold Hatchet.setDns at h
  rw [if_neg hd] at h
  obtain ⟨o, s1, h1, h2⟩ := bind_ok h
  obtain ⟨e1, e2, -⟩ := open_ok h1
  obtain ⟨u, s2, h3, h4⟩ := bind_ok h2
  cases h4
  refine ⟨rfl, ?_⟩
  have e2 : o = true ↔ SaysOpenresolv w s.hist := e2
  by_cases ho : o = true
  · rw [if_pos ho] at h3
    obtain ⟨r, hr, rfl⟩ := run_ok h3
    refine ⟨fun _ => ?_, fun hn => absurd (e2.1 ho) hn⟩
    dsimp only
    rw [after_snoc, e1, eff_add _ _ _ hr]
  · rw [if_neg ho] at h3
    refine ⟨fun hn => absurd (e2.2 hn) ho, fun _ => ?_⟩
    obtain ⟨t, s3, h5, h6⟩ := bind_ok h3
    obtain ⟨-, -, rfl⟩ := call_ok h5
    obtain ⟨v, s4, h7, h8⟩ := bind_ok h6
    obtain ⟨r, hr, rfl⟩ := run_ok h8
    dsimp only
    rw [after_snoc, eff_mount _ _ _ hr]
    have key : (d.after s4.hist).mounts = (d.after s.hist).mounts ∧ (d.after s4.hist).records = (d.after s.hist).records ∧ SameFile (d.after s.hist) (d.after s4.hist) := by
      by_cases ht : t.status = 0
      · rw [if_pos ht] at h7
        cases h7
        dsimp only
        rw [after_snoc, query_effect, e1]
        exact ⟨rfl, rfl, .inl rfl⟩
      · rw [if_neg ht] at h7
        obtain ⟨r2, hr2, rfl⟩ := run_ok h7
        dsimp only
        rw [after_snoc, after_snoc, query_effect, e1, eff_touch _ _ hr2]
        refine ⟨rfl, rfl, ?_⟩
        unfold SameFile
        cases hf : (d.after s.hist).file with
        | none => exact .inr ⟨rfl, rfl⟩
        | some x => exact .inl rfl
    exact ⟨by rw [key.1], rfl, key.2.1, key.2.2⟩

namespace HatchetProof

theorem servers_append {a b : List UInt8} {l m : List (List UInt8)} (h1 : Servers a l) (h2 : Servers b m) : Servers (a ++ b) (l ++ m) := by
  obtain ⟨x, rfl, hx, rfl⟩ := h1
  obtain ⟨y, rfl, hy, rfl⟩ := h2
  refine ⟨x ++ y, by rw [List.flatMap_append], ?_, by rw [List.filter_append, List.map_append]⟩
  intro t ht
  rcases List.mem_append.1 ht with ht | ht
  · exact hx t ht
  · exact hy t ht

theorem servers_other {t : List UInt8} (h1 : (10 : UInt8) ∉ t) (h2 : b!"nameserver ".isPrefixOf t = false) : Servers (t ++ b!"\n") [] :=
  ⟨[t], by simp, by simpa using h1, by rw [List.filter_cons_of_neg (by simp [h2])]; rfl⟩

theorem servers_one {t : List UInt8} (h1 : (10 : UInt8) ∉ t) : Servers (b!"nameserver " ++ t ++ b!"\n") [t] :=
  ⟨[b!"nameserver " ++ t], by simp, by
    intro x hx
    simp only [List.mem_singleton] at hx
    subst hx
    simp only [List.mem_append, not_or]
    exact ⟨by decide, h1⟩, by rw [List.filter_cons_of_pos (by simp [List.isPrefixOf])]; rfl⟩

theorem servers_all {l : List CStr} (h : ∀ t ∈ l, (10 : UInt8) ∉ t) : Servers (l.flatMap fun t => b!"nameserver " ++ t ++ b!"\n") l := by
  induction l with
  | nil => exact ⟨[], rfl, by simp, rfl⟩
  | cons x l ih => exact servers_append (servers_one (h x (by simp))) (ih fun t ht => h t (by simp [ht]))

theorem no_lf_join : ∀ l : List CStr, (∀ t ∈ l, (10 : UInt8) ∉ t) → (10 : UInt8) ∉ joinSpace l
  | [], _ => by simp [joinSpace]
  | [x], h => by simpa [joinSpace] using h x (by simp)
  | x :: y :: l, h => by
    show (10 : UInt8) ∉ x ++ b!" " ++ joinSpace (y :: l)
    simp only [List.mem_append, not_or]
    exact ⟨⟨h x (by simp), by decide⟩, no_lf_join (y :: l) fun t ht => h t (by simp [ht])⟩

theorem servers_header {i : CStr} (h : (10 : UInt8) ∉ i) : Servers (header i) [] := by
  have e : header i = (b!"# This file was generated by wg-quick(8) for use with" ++ b!"\n") ++ ((b!"# the WireGuard interface " ++ i ++ b!". It cannot be" ++ b!"\n") ++
      ((b!"# removed or altered directly. You may remove this file" ++ b!"\n") ++ ((b!"# by running `wg-quick down " ++ i ++ b!"', or if that" ++ b!"\n") ++
      ((b!"# poses problems, run `umount /etc/resolv.conf'." ++ b!"\n") ++ ([] ++ b!"\n"))))) := by
    simp only [header, List.append_assoc]
    rfl
  rw [e]
  have f : ∀ a b : CStr, (10 : UInt8) ∉ a → (10 : UInt8) ∉ b → (10 : UInt8) ∉ a ++ i ++ b := by
    intro a b h1 h2; simp only [List.mem_append, not_or]; exact ⟨⟨h1, h⟩, h2⟩
  refine servers_append (l := []) (m := []) (servers_other (by decide) (by decide)) ?_
  refine servers_append (l := []) (m := []) (servers_other (f _ _ (by decide) (by decide)) rfl) ?_
  refine servers_append (l := []) (m := []) (servers_other (by decide) (by decide)) ?_
  refine servers_append (l := []) (m := []) (servers_other (f _ _ (by decide) (by decide)) rfl) ?_
  exact servers_append (l := []) (m := []) (servers_other (by decide) (by decide)) (servers_other (by decide) (by decide))

end HatchetProof

/-- C101. The file that is mounted names exactly the configured servers, in order. -/
theorem c101_servers (c : Cfg) (hi : IsIfaceName c.iface) (hd : ∀ t ∈ c.opts.dns, (10 : UInt8) ∉ t) (hs : ∀ t ∈ c.opts.dnsSearch, (10 : UInt8) ∉ t) :
    Servers (mountedText c) c.opts.dns := by
  have h1 := servers_header (i := c.iface) fun h => absurd (hi.2.2 10 h) (by decide)
  have h2 := servers_all hd
  have h3 : Servers (if c.opts.dnsSearch = [] then [] else b!"search " ++ List.intercalate b!" " c.opts.dnsSearch ++ b!"\n") [] := by
    split
    · exact ⟨[], rfl, by simp, rfl⟩
    · rw [← joinSpace_eq]
      refine servers_other ?_ rfl
      simp only [List.mem_append, not_or]
      exact ⟨by decide, no_lf_join _ hs⟩
  have := servers_append h1 (servers_append h2 h3)
  simpa [mountedText, resolvLines] using this

/-- C101. The shell that mounts the file either does it all, and then ends with status 0, or ends with another status and nothing is mounted over `/etc/resolv.conf`. -/
theorem c101_inner (ok : CStr → Bool) : (runInner ok innerSteps).2 = true ↔ b!"bind" ∈ (runInner ok innerSteps).1 := by
  simp only [innerSteps, runInner]
  cases ok b!"make-private" <;> cases ok b!"tmpfs" <;> cases ok b!"cat" <;> cases ok b!"remount" <;> cases ok b!"bind" <;> cases ok b!"stat" <;> cases ok b!"chcon" <;> decide

/-- C101. `unset_dns` when its command succeeds: what `set_dns` did last is undone. -/
theorem c101_unset (c : Cfg) (hd : c.opts.dns ≠ []) (w : World) (s s' : St) (h : Hatchet.unsetDns c true w s = (.ok (), s')) (d : Dns) :
    (SaysOpenresolv w s.hist → d.after s'.hist = { d.after s.hist with records := (d.after s.hist).records.filter (·.1 ≠ c.iface) }) ∧
    (¬ SaysOpenresolv w s.hist → d.after s'.hist = { d.after s.hist with mounts := (d.after s.hist).mounts.tail }) := by
  unfold Hatchet.unsetDns at h
  rw [if_neg hd] at h
  obtain ⟨o, s1, h1, h2⟩ := bind_ok h
  obtain ⟨e1, e2, -⟩ := open_ok h1
  have e2 : o = true ↔ SaysOpenresolv w s.hist := e2
  obtain ⟨r, hr, rfl⟩ := run_ok h2
  dsimp only
  rw [after_snoc, e1]
  by_cases ho : o = true
  · rw [if_pos ho]
    exact ⟨fun _ => eff_delete _ _ _ hr, fun hn => absurd (e2.1 ho) hn⟩
  · rw [if_neg ho]
    exact ⟨fun hn => absurd (e2.2 hn) ho, fun _ => eff_umount _ _ hr⟩

/-- Set and unset the servers of several interfaces. -/
def setAll : List Cfg → Sh Unit := forEach Hatchet.setDns
def unsetAll : List Cfg → Sh Unit := forEach fun c => Hatchet.unsetDns c true

theorem set_none {c : Cfg} (hd : c.opts.dns = []) {w : World} {s s' : St} (h : Hatchet.setDns c w s = (.ok (), s')) : s' = s := by
  unfold Hatchet.setDns at h
  rw [if_pos hd] at h
  cases h; rfl

theorem unset_none {c : Cfg} (hd : c.opts.dns = []) {w : World} {s s' : St} (h : Hatchet.unsetDns c true w s = (.ok (), s')) : s' = s := by
  unfold Hatchet.unsetDns at h
  rw [if_pos hd] at h
  cases h; rfl

/-- The texts that are mounted for interfaces, the first below. -/
def mountedFor (cs : List Cfg) : List (List UInt8) := (cs.filter fun c => c.opts.dns ≠ []).map mountedText

theorem setAll_ok (w : World) (hw : NoOpenresolv w) (d : Dns) : ∀ (cs : List Cfg) (s s' : St), setAll cs w s = (.ok (), s') →
    (d.after s'.hist).mounts = (mountedFor cs).reverse ++ (d.after s.hist).mounts ∧ (d.after s'.hist).records = (d.after s.hist).records ∧
    SameFile (d.after s.hist) (d.after s'.hist)
  | [], s, s', h => by cases h; exact ⟨rfl, rfl, .inl rfl⟩
  | c :: cs, s, s', h => by
    obtain ⟨u, s1, h1, h2⟩ := bind_ok h
    obtain ⟨i1, i2, i3⟩ := setAll_ok w hw d cs s1 s' h2
    by_cases hd : c.opts.dns = []
    · obtain rfl := set_none hd h1
      have e : mountedFor (c :: cs) = mountedFor cs := by simp [mountedFor, hd]
      rw [e]
      exact ⟨i1, i2, i3⟩
    · obtain ⟨-, -, h3⟩ := c101_set c hd w s s1 h1 d
      obtain ⟨j1, -, j3, j4⟩ := h3 (hw s.hist)
      have e : mountedFor (c :: cs) = mountedText c :: mountedFor cs := by simp [mountedFor, hd]
      rw [e, i1, j1, i2, j3]
      exact ⟨by simp, rfl, j4.trans i3⟩

theorem unsetAll_ok (w : World) (hw : NoOpenresolv w) (d : Dns) : ∀ (cs : List Cfg) (s s' : St), unsetAll cs w s = (.ok (), s') →
    (d.after s'.hist).mounts = (d.after s.hist).mounts.drop (mountedFor cs).length ∧ (d.after s'.hist).records = (d.after s.hist).records ∧
    (d.after s'.hist).file = (d.after s.hist).file
  | [], s, s', h => by cases h; exact ⟨rfl, rfl, rfl⟩
  | c :: cs, s, s', h => by
    obtain ⟨u, s1, h1, h2⟩ := bind_ok h
    obtain ⟨i1, i2, i3⟩ := unsetAll_ok w hw d cs s1 s' h2
    by_cases hd : c.opts.dns = []
    · obtain rfl := unset_none hd h1
      have e : mountedFor (c :: cs) = mountedFor cs := by simp [mountedFor, hd]
      rw [e]
      exact ⟨i1, i2, i3⟩
    · have j := (c101_unset c hd w s s1 h1 d).2 (hw s.hist)
      have e : mountedFor (c :: cs) = mountedText c :: mountedFor cs := by simp [mountedFor, hd]
      rw [e, i1, i2, i3, j]
      exact ⟨by simp, rfl, rfl⟩

/-- C101. Any number of interfaces brought up one after the other and taken down in the opposite order, each step successful, without openresolv: programs read what they read before. (If there was no
file there is an empty one.) -/
theorem c101_nested (w : World) (hw : NoOpenresolv w) (cs : List Cfg) (s s1 s2 : St) (h1 : setAll cs w s = (.ok (), s1)) (h2 : unsetAll cs.reverse w s1 = (.ok (), s2)) (d : Dns) :
    (d.after s2.hist).mounts = (d.after s.hist).mounts ∧ (d.after s2.hist).records = (d.after s.hist).records ∧
    ((d.after s2.hist).visible = (d.after s.hist).visible ∨ ((d.after s.hist).visible = none ∧ (d.after s2.hist).visible = some [])) := by
  obtain ⟨a1, a2, a3⟩ := setAll_ok w hw d cs s s1 h1
  obtain ⟨b1, b2, b3⟩ := unsetAll_ok w hw d cs.reverse s1 s2 h2
  have e : (mountedFor cs.reverse).length = (mountedFor cs).reverse.length := by
    unfold mountedFor
    rw [List.filter_reverse]
    simp
  have hm : (d.after s2.hist).mounts = (d.after s.hist).mounts := by rw [b1, a1, e, List.drop_left]
  refine ⟨hm, b2.trans a2, ?_⟩
  unfold Dns.visible
  rw [hm]
  cases hmm : (d.after s.hist).mounts with
  | cons t l => exact .inl rfl
  | nil =>
    dsimp only
    rw [b3]
    rcases a3 with a3 | ⟨a3, a4⟩
    · exact .inl a3
    · exact .inr ⟨a3, a4⟩

/-- C101. When `set_dns` ends the script, with the status of the command that failed, no servers were set: the cleanup has nothing to undo, and does not try. -/
theorem c101_failed (c : Cfg) (w : World) (s s' : St) (n : Nat) (h : Hatchet.setDns c w s = (.exit n, s')) (d : Dns) :
    n ≠ 0 ∧ s'.haveDns = s.haveDns ∧ (d.after s'.hist).mounts = (d.after s.hist).mounts ∧ (d.after s'.hist).records = (d.after s.hist).records ∧
    SameFile (d.after s.hist) (d.after s'.hist) := by
  have bind_exit : ∀ {α β : Type} {m : Sh α} {f : α → Sh β} {w : World} {s s' : St} {n : Nat}, m.bind f w s = (.exit n, s') →
      m w s = (.exit n, s') ∨ ∃ a s1, m w s = (.ok a, s1) ∧ f a w s1 = (.exit n, s') := by
    intro α β m f w s s' n h
    unfold Sh.bind at h
    rcases e : m w s with ⟨_ | _ | _ | _, s1⟩ <;> rw [e] at h
    · exact .inr ⟨_, _, rfl, h⟩
    · cases h; exact .inl rfl
    all_goals cases h
  have call_exit : ∀ {a : Call} {w : World} {s s' : St} {n : Nat}, call a w s ≠ (.exit n, s') := by
    intro a w s s' n h
    unfold call at h
    by_cases hs : (w s.hist a).sig = true
    · rw [if_pos hs] at h; cases h
    · rw [if_neg hs] at h; cases h
  have run_exit : ∀ {a : Call} {s s' : St} {n : Nat}, run true a w s = (.exit n, s') → n ≠ 0 ∧ s'.haveDns = s.haveDns ∧ ∀ d : Dns, d.after s'.hist = d.after s.hist := by
    intro a s s' n h
    rcases bind_exit h with h | ⟨r, s1, h1, h2⟩
    · exact absurd h call_exit
    · obtain ⟨-, -, rfl⟩ := call_ok h1
      by_cases hr : r.status = 0
      · rw [if_neg (by simp [hr])] at h2
        cases h2
      · rw [if_pos (by simp [hr])] at h2
        cases h2
        refine ⟨hr, rfl, fun d => ?_⟩
        dsimp only
        rw [after_snoc, eff_fail _ _ _ hr]
  unfold Hatchet.setDns at h
  by_cases hd : c.opts.dns = []
  · rw [if_pos hd] at h; cases h
  rw [if_neg hd] at h
  rcases bind_exit h with h | ⟨o, s1, h1, h2⟩
  · rcases bind_exit h with h | ⟨r, s1, h1, h2⟩
    · exact absurd h call_exit
    · cases h2
  obtain ⟨e1, -, e3⟩ := open_ok h1
  rcases bind_exit h2 with h2 | ⟨u, s2, h3, h4⟩
  swap
  · cases h4
  split at h2
  · obtain ⟨k1, k2, k3⟩ := run_exit h2
    rw [k3, e1]
    exact ⟨k1, k2.trans e3, rfl, rfl, .inl rfl⟩
  · rcases bind_exit h2 with h2 | ⟨t, s3, h5, h6⟩
    · exact absurd h2 call_exit
    obtain ⟨-, -, rfl⟩ := call_ok h5
    rcases bind_exit h6 with h6 | ⟨v, s4, h7, h8⟩
    · split at h6
      · cases h6
      · obtain ⟨k1, k2, k3⟩ := run_exit h6
        rw [k3]
        dsimp only at k2 ⊢
        rw [after_snoc, query_effect, e1]
        exact ⟨k1, k2.trans e3, rfl, rfl, .inl rfl⟩
    · obtain ⟨k1, k2, k3⟩ := run_exit h8
      rw [k3]
      split at h7
      · cases h7
        dsimp only at k2 ⊢
        rw [after_snoc, query_effect, e1]
        exact ⟨k1, k2.trans e3, rfl, rfl, .inl rfl⟩
      · obtain ⟨r2, hr2, rfl⟩ := run_ok h7
        dsimp only at k2 ⊢
        rw [after_snoc, after_snoc, query_effect, e1, eff_touch _ _ hr2]
        refine ⟨k1, k2.trans e3, rfl, rfl, ?_⟩
        unfold SameFile
        cases hf : (d.after s.hist).file with
        | none => exact .inr ⟨rfl, rfl⟩
        | some x => exact .inl rfl

/-! ### Findings -/

/-- In another order C101 does not hold: with `a` brought up before `b` and taken down before `b`, the servers of `b` are gone although `b` is up, and those of `a`, which is down, are in use. -/
theorem c101_counterexample_order (w : World) (hw : NoOpenresolv w) (a b : Cfg) (ha : a.opts.dns ≠ []) (hb : b.opts.dns ≠ []) (s s1 s2 s3 : St)
    (h1 : Hatchet.setDns a w s = (.ok (), s1)) (h2 : Hatchet.setDns b w s1 = (.ok (), s2)) (h3 : Hatchet.unsetDns a true w s2 = (.ok (), s3)) (d : Dns) :
    (d.after s3.hist).visible = some (mountedText a) := by
  have e1 := ((c101_set a ha w s s1 h1 d).2.2 (hw _)).1
  have e2 := ((c101_set b hb w s1 s2 h2 d).2.2 (hw _)).1
  have e3 := (c101_unset a ha w s2 s3 h3 d).2 (hw _)
  unfold Dns.visible
  rw [e3]
  dsimp only
  rw [e2, e1]
  rfl

/-- If openresolv is installed between up and down, the servers of the interface stay in use after it is taken down, and nothing fails. -/
theorem c101_counterexample_installed (w : World) (c : Cfg) (hd : c.opts.dns ≠ []) (s s1 s2 : St) (h1 : Hatchet.setDns c w s = (.ok (), s1)) (h2 : Hatchet.unsetDns c true w s1 = (.ok (), s2))
    (h3 : ¬ SaysOpenresolv w s.hist) (h4 : SaysOpenresolv w s1.hist) (d : Dns) : (d.after s2.hist).visible = some (mountedText c) := by
  have e1 := ((c101_set c hd w s s1 h1 d).2.2 h3).1
  have e2 := (c101_unset c hd w s1 s2 h2 d).1 h4
  unfold Dns.visible
  rw [e2]
  dsimp only
  rw [e1]

/-! ### Examples -/

/-- No resolvconf; a file is there; everything else succeeds. -/
def exHatchetWorld : World := fun _ a => if a = .query [b!"resolvconf", b!"--version"] then ⟨127, [], false⟩ else ⟨0, [], false⟩

/-- The same, with openresolv once something has been mounted. -/
def exLaterWorld : World := fun h a => if a = .query [b!"resolvconf", b!"--version"] then (if h.length < 3 then ⟨127, [], false⟩ else ⟨0, b!"openresolv 3.12\n", false⟩) else ⟨0, [], false⟩

def exOther : Cfg := { exCfg with iface := b!"wg1", opts := { exCfg.opts with dns := [b!"10.9.9.9"] } }

theorem exHatchet_no : NoOpenresolv exHatchetWorld := by
  intro h
  show ¬ b!"openresolv " <+: captured []
  decide

/-- The hypotheses of `c101_nested`, `c101_set`, `c101_unset` and `c101_counterexample_order` are met. -/
example : (setAll [exCfg, exOther] exHatchetWorld {}).1 = .ok () ∧ (unsetAll [exOther, exCfg] exHatchetWorld (setAll [exCfg, exOther] exHatchetWorld {}).2).1 = .ok () ∧
    (unsetAll [exCfg] exHatchetWorld (setAll [exCfg, exOther] exHatchetWorld {}).2).1 = .ok () := by decide +kernel

/-- Those of `c101_counterexample_installed`. -/
example : (setAll [exCfg] exLaterWorld {}).1 = .ok () ∧ (unsetAll [exCfg] exLaterWorld (setAll [exCfg] exLaterWorld {}).2).1 = .ok () ∧
    ¬ SaysOpenresolv exLaterWorld [] ∧ SaysOpenresolv exLaterWorld (setAll [exCfg] exLaterWorld {}).2.hist := by
  refine ⟨by decide +kernel, by decide +kernel, ?_, ?_⟩
  · show ¬ b!"openresolv " <+: captured []
    decide
  · have : exLaterWorld (setAll [exCfg] exLaterWorld {}).2.hist (.query [b!"resolvconf", b!"--version"]) = ⟨0, b!"openresolv 3.12\n", false⟩ := by decide +kernel
    unfold SaysOpenresolv
    rw [this]
    decide

/-- That of `c101_failed`: the mount fails. -/
example : (Hatchet.setDns exCfg (fun _ a => if a = mountOver exCfg then ⟨32, [], false⟩ else ⟨0, [], false⟩) {}).1 = .exit 32 := by decide +kernel

example : IsIfaceName exCfg.iface ∧ (∀ t ∈ exCfg.opts.dns, (10 : UInt8) ∉ t) ∧ ∀ t ∈ exCfg.opts.dnsSearch, (10 : UInt8) ∉ t :=
  ⟨(isName_iff _).1 (by decide), by decide, by decide⟩

end WG
