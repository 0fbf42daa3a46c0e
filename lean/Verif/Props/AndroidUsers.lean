import Verif.Proof.AndroidUp
/-!
C85: the applications that use the tunnel on Android.
-/
namespace WG.Android
open WG.Spec WG.Spec.Android WG.Spec.Quick

/-- A command that adds users. -/
def usersCmd (c : Call) : Bool := match c with
  | .read s => b!"ndc network users add ".isPrefixOf s
  | .system s => b!"ndc network users add ".isPrefixOf s
  | .write s _ => b!"ndc network users add ".isPrefixOf s
  | _ => false

abbrev Other (ev : Ev) : Prop := usersCmd ev.1 = false

section
variable {e : Env}

theorem other_check (s : CStr) : Safe e Other (fun _ => True) (firstLine (b!"ip " ++ s)) :=
  Safe.mono (Safe.firstLine (K := fun _ _ => True) (fun _ _ => trivial) fun _ _ => rfl) (fun _ h => h) fun _ _ => trivial

theorem other_wg (s : CStr) : Safe e Other (fun _ => True) (popen (b!"wg " ++ s)) :=
  Safe.mono (Safe.popen (K := fun _ _ => True) (fun _ _ => trivial) fun _ _ => rfl) (fun _ h => h) fun _ _ => trivial

theorem other_setConfig (iface config : CStr) : Safe e Other (fun _ => True) (setConfig iface config) := by
  refine Safe.bind (Safe.call' fun _ => rfl) fun r _ => ?_
  split
  · exact Safe.exit
  · split
    · exact Safe.pure trivial
    · exact Safe.exit
    · exact Safe.exit

theorem other_listenPort (iface : CStr) : Safe e Other (fun _ => True) (listenPort iface) := by
  refine Safe.bind (Safe.cmd fun _ => rfl) fun _ _ => Safe.bind (Q := fun _ => True) ?_ fun v _ => Safe.bind (Safe.cmd fun _ => rfl) fun _ _ => Safe.pure trivial
  exact Safe.mono (Safe.firstLine (K := fun _ _ => True) (fun _ _ => trivial) fun _ _ => rfl) (fun _ h => h) fun _ _ => trivial

theorem other_upIf (iface : CStr) (port : Nat) : Safe e Other (fun _ => True) (upIf iface port) := by
  refine Safe.bind (Safe.getEnv (Q := fun _ => True) trivial) fun env _ => ?_
  split
  · exact Safe.running
  · refine Safe.bind (Safe.cmd fun _ => rfl) fun _ _ => Safe.bind (Safe.cmd fun _ => rfl) fun _ _ => Safe.bind (Safe.cmd fun _ => rfl) fun _ _ =>
      Safe.bind (Q := fun _ => True) ?_ fun _ _ => Safe.bind (Safe.cmd fun _ => rfl) fun _ _ => Safe.bind (Safe.cndc fun _ => rfl) fun _ _ =>
      Safe.bind (Safe.cndc fun _ => rfl) fun _ _ => Safe.pure trivial
    split
    · refine Safe.bind (Safe.cmd fun _ => rfl) fun _ _ => Safe.bind (Q := fun _ => True) ?_ fun _ _ => Safe.cmd fun _ => rfl
      exact Safe.bind (other_wg _) fun _ _ => Safe.bind Safe.atEof fun _ _ => Safe.pure trivial
    · exact Safe.pure trivial

theorem other_setAddr (iface addrs : CStr) : Safe e Other (fun _ => True) (setAddr iface addrs) := by
  refine Safe.forEach fun a _ => ?_
  unfold addAddr
  split
  · exact Safe.bind (Safe.cndc fun _ => rfl) fun _ _ => Safe.cmd fun _ => rfl
  · exact Safe.cndc fun _ => rfl

theorem other_setDnses (netid : Nat) (dnses : CStr) : Safe e Other (fun _ => True) (setDnses netid dnses) := by
  have hb : ∀ c, usersCmd c = false → Safe e Other (fun _ => True) (binderCall c) := fun c hc => by
    refine Safe.bind (Safe.call' fun _ => hc) fun r _ => ?_
    split
    · exact Safe.pure trivial
    · exact Safe.exit
  unfold setDnses
  split
  · exact Safe.pure trivial
  · dsimp only
    split
    · split
      · exact Safe.ub
      · refine Safe.bind (Safe.call' fun _ => rfl) fun r _ => ?_
        split
        · exact Safe.bind (hb _ rfl) fun _ _ => hb _ rfl
        · exact Safe.cndc fun _ => rfl
    · exact Safe.pure trivial

theorem other_setRoutes (iface : CStr) (netid : Nat) : Safe e Other (fun _ => True) (setRoutes iface netid) :=
  Safe.forLines (K := fun _ _ => True) (fun _ _ => trivial) (fun _ _ => rfl) fun _ _ _ _ => Safe.forEach fun _ _ => Safe.cndc fun _ => rfl

theorem other_routeMtu (x : CStr) : Safe e Other (fun _ => True) (routeMtu x) := by
  have h1 : ∀ s t : CStr, Safe e Other (fun _ => True) (firstLine ((if x = b!"default" then b!"ip " ++ s else b!"ip " ++ t) ++ x)) := by
    intro s t
    split
    · rw [List.append_assoc]; exact other_check _
    · rw [List.append_assoc]; exact other_check _
  refine Safe.bind (h1 b!"-o route show " b!"-o route get ") fun l _ => ?_
  split
  · exact Safe.pure trivial
  · split
    · exact Safe.pure trivial
    · split
      · exact Safe.pure trivial
      · refine Safe.bind (other_check _) fun l _ => ?_
        split
        · exact Safe.pure trivial
        · split <;> exact Safe.pure trivial

theorem other_mtuLoop (r : Reply) : ∀ (ls : List CStr) (m : Int), Safe e Other (fun _ => True) (mtuLoop r m ls)
  | [], m => Safe.bind Safe.atEof fun _ _ => Safe.pure trivial
  | l :: ls, m => by
    simp only [mtuLoop]
    split
    · exact other_mtuLoop r ls m
    · exact Safe.bind (other_routeMtu _) fun _ _ => other_mtuLoop r ls _

theorem other_setMtu (iface : CStr) (mtu : Nat) : Safe e Other (fun _ => True) (setMtu iface mtu) := by
  unfold setMtu
  split
  · exact Safe.cndc fun _ => rfl
  · exact Safe.bind (other_routeMtu _) fun _ _ => Safe.bind (other_wg _) fun _ _ => Safe.bind (other_mtuLoop _ _ _) fun _ _ => Safe.cndc fun _ => rfl

theorem other_broadcast : Safe e Other (fun _ => True) broadcast := by
  refine Safe.bind (Safe.getEnv (Q := fun _ => True) trivial) fun env _ => ?_
  split
  · exact Safe.pure trivial
  · exact Safe.cmd fun _ => rfl

/-- What a safe part adds. -/
theorem Safe.adds {α : Type} {m : Sh α} {P : Ev → Prop} {Q : α → Prop} (hm : Safe e P Q m) {h h' : List Ev} {o : Out α} (hr : m e h = (o, h')) :
    ∃ t, h' = h ++ t ∧ ∀ ev ∈ t, P ev := by
  obtain ⟨t, h1, h2, _⟩ := hm h
  rw [hr] at h1
  exact ⟨t, h1, h2⟩
end

theorem cmdOf_users {ev : Ev} {s : CStr} (h : cmdOf ev = some s) (hs : b!"ndc network users add " <+: s) : usersCmd ev.1 = true := by
  rcases ev with ⟨c, r⟩
  cases c <;> simp only [cmdOf, Option.some.injEq, reduceCtorEq] at h <;> subst h <;> exact List.isPrefixOf_iff_prefix.2 hs

/-- The users of a run of `up` that succeeded. -/
theorem users_run {c : Conf} {e : Env} {hist : List Ev} (hp : e.packages ≠ .error 0) (hr : cmdUp c e [] = (.exit 0, hist)) :
    ∃ (netid : Nat) (uids : List Nat) (x : Bool), x = (c.excluded.isSome || !c.included.isSome) ∧ ¬ (c.excluded.isSome ∧ c.included.isSome) ∧
      getUidList e.packages e.residue e.sort (if x then c.excluded else c.included) = .ok uids ∧
      (∃ s ∈ cmdsOf hist, b!"ndc network create " ++ decimal netid ++ b!" vpn 1" <+: s) ∧
      (∀ s ∈ cmdsOf hist, b!"ndc network users add " <+: s → ∃ args, AddsUsers s netid args) ∧
      ∀ u, UserAdded (cmdsOf hist) netid u ↔ ∃ a ∈ userRanges x uids, InArg a u := by
  obtain ⟨h1, hc, hb⟩ := cmdUp_zero hp hr
  obtain ⟨P⟩ := upBody_ok hb
  obtain ⟨t0, e0, p0⟩ := (other_check (e := e) (b!"link show dev " ++ c.iface ++ b!" 2>/dev/null")).adds hc
  obtain ⟨t1, e1, p1⟩ := (Safe.cmd (P := Other) fun _ => rfl).adds P.add
  obtain ⟨t2, e2, p2⟩ := (other_setConfig _ _).adds P.set
  obtain ⟨t3, e3, p3⟩ := (other_listenPort _).adds P.listen
  obtain ⟨t4, e4, p4⟩ := (other_upIf _ _).adds P.up
  obtain ⟨t5, e5, p5⟩ := (other_setAddr _ _).adds P.addr
  obtain ⟨t6, e6, p6⟩ := (other_setDnses _ _).adds P.dns
  obtain ⟨t7, e7, p7⟩ := (other_setRoutes _ _).adds P.routes
  obtain ⟨t8, e8, p8⟩ := (other_setMtu _ _).adds P.mtu
  obtain ⟨t10, e10, p10⟩ := other_broadcast.adds P.news
  have hu := P.users
  unfold setUsers at hu
  by_cases hboth : c.excluded.isSome ∧ c.included.isSome
  · rw [if_pos hboth] at hu; exact (exit_ok hu).elim
  rw [if_neg hboth] at hu
  dsimp only at hu
  obtain ⟨env, hh, he, hu⟩ := bind_ok hu
  obtain ⟨rfl, rfl⟩ : e = env ∧ P.h8 = hh := by simpa [getEnv] using he
  rcases hg : getUidList e.packages e.residue e.sort (if (c.excluded.isSome || !c.included.isSome) = true then c.excluded else c.included) with uids | n | _
  rotate_left
  · rw [hg] at hu; exact (exit_ok hu).elim
  · rw [hg] at hu; simp [ubHere] at hu
  rw [hg] at hu
  dsimp only at hu
  obtain ⟨t9, e9, p9⟩ := forEach_cndc hu
  generalize hx : (c.excluded.isSome || !c.included.isSome) = x at *
  refine ⟨P.netid, uids, x, rfl, hboth, hg, ?_, ?_⟩
  · -- the network
    obtain ⟨block, _, t, f1, f2, _⟩ := upIf_ok P.up
    have : Call.read (b!"ndc network create " ++ showDec P.netid ++ (if e.sdk < 31 then b!" vpn 1 1" else b!" vpn 1")) ∈ t.map Prod.fst := by rw [f2]; simp [upCalls]
    obtain ⟨ev, hev, hev2⟩ := List.mem_map.1 this
    refine ⟨_, List.mem_filterMap.2 ⟨ev, by rw [e10, e9, e8, e7, e6, e5, f1]; simp [hev], by rcases ev with ⟨c', r⟩; dsimp only at hev2; subst hev2; rfl⟩, ?_⟩
    rw [← showDec_eq]
    split
    · exact ⟨b!" 1", by simp⟩
    · exact ⟨[], by simp⟩
  · generalize hargs : userRanges x uids = args at *
    obtain ⟨hfl, h18⟩ := batches_ok (args.length + 1) args (by omega)
    have hplain := hargs ▸ userRanges_plain x uids
    have hbp : ∀ l ∈ batches (args.length + 1) args, ∀ a ∈ l, a ∈ args := by
      intro l hl a ha
      rw [← hfl]; exact List.mem_flatten.2 ⟨l, hl, ha⟩
    have hwords : ∀ l ∈ batches (args.length + 1) args, Words blankSep (joined l) l := fun l hl => words_joined l fun a ha => hplain a (hbp l hl a ha)
    have hmem : ∀ l ∈ batches (args.length + 1) args, b!"ndc network users add " ++ decimal P.netid ++ b!" " ++ joined l ∈ cmdsOf hist := by
      intro l hl
      have : Call.read (b!"ndc " ++ (b!"network users add " ++ showDec P.netid ++ b!" " ++ joined l)) ∈ t9.map Prod.fst := by
        rw [p9]; exact List.mem_map.2 ⟨l, hl, rfl⟩
      obtain ⟨ev, hev, hev2⟩ := List.mem_map.1 this
      refine List.mem_filterMap.2 ⟨ev, by rw [e10, e9]; simp [hev], ?_⟩
      rcases ev with ⟨c', r⟩
      dsimp only at hev2
      subst hev2
      rw [← showDec_eq]; simp [cmdOf]
    have hback : ∀ s ∈ cmdsOf hist, b!"ndc network users add " <+: s → ∃ l ∈ batches (args.length + 1) args, s = b!"ndc network users add " ++ decimal P.netid ++ b!" " ++ joined l := by
      intro s hs hpre
      obtain ⟨ev, hev, hev2⟩ := List.mem_filterMap.1 hs
      have hus := cmdOf_users hev2 hpre
      have hno : ∀ t : List Ev, (∀ ev ∈ t, Other ev) → ev ∉ t := fun t ht hm => by rw [show usersCmd ev.1 = false from ht ev hm] at hus; simp at hus
      have : ev ∈ t9 := by
        rw [e10, e9, e8, e7, e6, e5, e4, e3, e2, e1, e0] at hev
        simp only [List.mem_append, hno _ p0, hno _ p1, hno _ p2, hno _ p3, hno _ p4, hno _ p5, hno _ p6, hno _ p7, hno _ p8, hno _ p10, or_false] at hev
        simpa using hev
      have h2 : ev.1 ∈ t9.map Prod.fst := List.mem_map_of_mem this
      rw [p9] at h2
      obtain ⟨l, hl, hl2⟩ := List.mem_map.1 h2
      refine ⟨l, hl, ?_⟩
      rcases ev with ⟨c', r⟩
      dsimp only at hl2
      subst hl2
      simp only [cmdOf, Option.some.injEq] at hev2
      rw [← hev2, ← showDec_eq]; simp
    refine ⟨?_, fun u => ?_⟩
    · intro s hs hpre
      obtain ⟨l, hl, rfl⟩ := hback s hs hpre
      exact ⟨l, _, rfl, hwords l hl, h18 l hl⟩
    · constructor
      · rintro ⟨s, hs, as, ⟨text, rfl, hw, _⟩, a, ha, hau⟩
        obtain ⟨l, hl, he⟩ := hback _ hs ⟨decimal P.netid ++ b!" " ++ text, by simp⟩
        have ht : text = joined l := by simpa using he
        subst ht
        rw [Quick.words_unique hw (hwords l hl)] at ha
        exact ⟨a, hbp l hl a ha, hau⟩
      · rintro ⟨a, ha, hau⟩
        rw [← hfl] at ha
        obtain ⟨l, hl, hal⟩ := List.mem_flatten.1 ha
        exact ⟨_, hmem l hl, l, ⟨_, rfl, hwords l hl, h18 l hl⟩, a, hal, hau⟩

/-- The run created this network, and every command that adds users adds them to it. -/
def Network (hist : List Ev) (netid : Nat) : Prop :=
  (∃ s ∈ cmdsOf hist, b!"ndc network create " ++ decimal netid ++ b!" vpn 1" <+: s) ∧
  ∀ s ∈ cmdsOf hist, b!"ndc network users add " <+: s → ∃ args, AddsUsers s netid args

/-- What is in memory behind the list does not matter: a zero follows its terminator, or the list ends with a comma. -/
def Harmless (sel residue : List UInt8) : Prop := residue.head? = some 0 ∨ sel.getLast? = some c!","

section
variable {c : Conf} {e : Env} {hist : List Ev} {content sel : List UInt8} {apps : List (CStr × Nat)}
  (hp : e.packages = .ok content) (hl : PackageList content apps) (hs : Sorts e.sort) (hr : cmdUp c e [] = (.exit 0, hist))
  (hne : sel ≠ []) (h0 : (0 : UInt8) ∉ sel) (hres : Harmless sel e.residue)
include hp hr

include hl hs hne h0 hres in
/-- With excluded applications, all uids up to 99998 but theirs use the tunnel, and 99999 too if neither it nor 99998 is excluded; no
higher uids if these applications have none. -/
theorem c85_excluded (hx : c.excluded = some sel) : ∃ netid, Network hist netid ∧
    (∀ u, u < 99999 → (UserAdded (cmdsOf hist) netid u ↔ ¬ UidListed apps sel u)) ∧
    (∀ u, UidListed apps sel u → ¬ UserAdded (cmdsOf hist) netid u) ∧
    ((∀ u, UidListed apps sel u → u < 100000) → (UserAdded (cmdsOf hist) netid 99999 ↔ ¬ UidListed apps sel 99999 ∧ ¬ UidListed apps sel 99998) ∧
      ∀ u, UserAdded (cmdsOf hist) netid u → u < 100000) := by
  obtain ⟨netid, uids, x, hx1, hx2, hg, hn1, hn2, hu⟩ := users_run (by rw [hp]; simp) hr
  have hxt : x = true := by rw [hx1, hx]; rfl
  subst hxt
  rw [if_pos rfl, hx, hp] at hg
  obtain ⟨l, g1, g2, g3, g4⟩ := getUidList_ok (residue := e.residue) (sort := e.sort) hl hs hne h0 (by rcases hres with h | h; exacts [.inl h, .inr (.inr h)])
  rw [g1] at hg
  injection hg with hg
  subst hg
  have hU : ∀ u, UserAdded (cmdsOf hist) netid u ↔ ¬ UidListed apps sel u ∧ ((∃ v, UidListed apps sel v ∧ u < v) ∨ (u ≤ 99999 ∧ ∀ v, UidListed apps sel v → v < 99998)) := by
    intro u
    rw [hu u, excluded_ranges g2 g4 u]
    simp only [g3]
  refine ⟨netid, ⟨hn1, hn2⟩, fun u hlt => ?_, fun u h1 h2 => ((hU u).1 h2).1 h1, fun hb => ⟨?_, fun u h => ?_⟩⟩
  · rw [hU u]
    constructor
    · exact fun h => h.1
    · intro h
      refine ⟨h, ?_⟩
      by_cases hh : ∃ v, UidListed apps sel v ∧ u < v
      · exact .inl hh
      · refine .inr ⟨by omega, fun v hv => ?_⟩
        have : ¬ u < v := fun h' => hh ⟨v, hv, h'⟩
        have : v ≠ u := fun h' => h (h' ▸ hv)
        omega
  · rw [hU]
    constructor
    · rintro ⟨h1, ⟨v, h2, h3⟩ | ⟨_, h2⟩⟩
      · have := hb v h2; omega
      · exact ⟨h1, fun h3 => by have := h2 _ h3; omega⟩
    · rintro ⟨h1, h2⟩
      refine ⟨h1, .inr ⟨by omega, fun v hv => ?_⟩⟩
      have := hb v hv
      have : v ≠ 99999 := fun h => h1 (h ▸ hv)
      have : v ≠ 99998 := fun h => h2 (h ▸ hv)
      omega
  · rcases ((hU u).1 h).2 with ⟨v, h2, h3⟩ | ⟨h2, _⟩
    · have := hb v h2; omega
    · omega

include hl hs hne h0 hres in
/-- With included applications, exactly their uids use the tunnel. -/
theorem c85_included (hx : c.included = some sel) : ∃ netid, Network hist netid ∧ ∀ u, UserAdded (cmdsOf hist) netid u ↔ UidListed apps sel u := by
  obtain ⟨netid, uids, x, hx1, hx2, hg, hn1, hn2, hu⟩ := users_run (by rw [hp]; simp) hr
  have hxf : x = false := by
    rw [hx1]
    rcases he : c.excluded with _ | y
    · rw [hx]; rfl
    · exact absurd ⟨by rw [he]; rfl, by rw [hx]; rfl⟩ hx2
  subst hxf
  rw [if_neg (by simp), hx, hp] at hg
  obtain ⟨l, g1, g2, g3, g4⟩ := getUidList_ok (residue := e.residue) (sort := e.sort) hl hs hne h0 (by rcases hres with h | h; exacts [.inl h, .inr (.inr h)])
  rw [g1] at hg
  injection hg with hg
  subst hg
  exact ⟨netid, ⟨hn1, hn2⟩, fun u => by rw [hu u, included_ranges, g3]⟩

/-- Without a list of applications, all uids up to 99999 use the tunnel. -/
theorem c85_all (hx : c.excluded = none) (hi : c.included = none) : ∃ netid, Network hist netid ∧ ∀ u, UserAdded (cmdsOf hist) netid u ↔ u ≤ 99999 := by
  obtain ⟨netid, uids, x, hx1, hx2, hg, hn1, hn2, hu⟩ := users_run (by rw [hp]; simp) hr
  have hxt : x = true := by rw [hx1, hx, hi]; rfl
  subst hxt
  rw [if_pos rfl, hx] at hg
  obtain rfl : [] = uids := by simpa [getUidList] using hg
  exact ⟨netid, ⟨hn1, hn2⟩, fun u => by rw [hu u, excluded_ranges List.Pairwise.nil (by simp)]; simp⟩

omit hr hp in
/-- Both lists at once are refused. -/
theorem c85_both (hp : e.packages ≠ .error 0) (hx : c.excluded.isSome) (hi : c.included.isSome) : (cmdUp c e []).1 ≠ .exit 0 := by
  intro h
  rcases hr : cmdUp c e [] with ⟨o, hist⟩
  rw [hr] at h
  dsimp only at h
  subst h
  obtain ⟨_, _, _, _, hb, _⟩ := users_run hp hr
  exact hb ⟨hx, hi⟩
end

/-! ### Examples and defects -/

/-- A system where all commands succeed: `ndc` answers `200`, other commands print nothing. -/
def fine (_ : List Ev) : Call → Reply
  | .read s => if b!"ndc ".isPrefixOf s then { out := b!"200 0 ok\n" } else {}
  | .handle => { status := .exited 1 }
  | _ => {}

def twoApps : List UInt8 := b!"com.a 10001 0 /data/user/0/com.a default:targetSdkVersion=30 none\ncom.b 10002 0 /data/user/0/com.b default none\n"

theorem twoApps_list : PackageList twoApps [(b!"com.a", 10001), (b!"com.b", 10002)] := by
  have hl : fileLines twoApps = [b!"com.a 10001 0 /data/user/0/com.a default:targetSdkVersion=30 none\n", b!"com.b 10002 0 /data/user/0/com.b default none\n"] := by decide +kernel
  refine ⟨?_, by decide +kernel, by decide⟩
  rw [hl]
  refine .cons ⟨by decide +kernel, b!"10001", b!"0 /data/user/0/com.a default:targetSdkVersion=30 none\n", ⟨by simp, by decide +kernel, by decide +kernel⟩, by decide +kernel⟩
    (.cons ⟨by decide +kernel, b!"10002", b!"0 /data/user/0/com.b default none\n", ⟨by simp, by decide +kernel, by decide +kernel⟩, by decide +kernel⟩ .nil)

/-- Insertion sort. -/
def ins (a : Nat) : List Nat → List Nat
  | [] => [a]
  | b :: l => if compareUid a b ≤ 0 then a :: b :: l else b :: ins a l

def isort (l : List Nat) : List Nat := l.foldr ins []

theorem ins_perm (a : Nat) : ∀ l, (ins a l).Perm (a :: l)
  | [] => .refl _
  | b :: l => by
    simp only [ins]
    split
    · exact .refl _
    · exact ((ins_perm a l).cons b).trans (.swap a b l)

theorem isort_perm : ∀ l, (isort l).Perm l
  | [] => .refl _
  | a :: l => (ins_perm a (isort l)).trans ((isort_perm l).cons a)

theorem ins_sorted (a : Nat) : ∀ l, (∀ x ∈ a :: l, ∀ y ∈ a :: l, (0 ≤ compareUid x y ↔ compareUid y x ≤ 0) ∧
    ∀ z ∈ a :: l, compareUid x y ≤ 0 → compareUid y z ≤ 0 → compareUid x z ≤ 0) → l.Pairwise (fun a b => compareUid a b ≤ 0) →
    (ins a l).Pairwise fun a b => compareUid a b ≤ 0
  | [], _, _ => by simp [ins]
  | b :: l, h, hp => by
    obtain ⟨h1, h2⟩ := List.pairwise_cons.1 hp
    simp only [ins]
    split
    · rename_i hab
      refine List.pairwise_cons.2 ⟨fun x hx => ?_, hp⟩
      rcases List.mem_cons.1 hx with rfl | hx
      · exact hab
      · exact (h a (by simp) b (by simp)).2 x (by simp [hx]) hab (h1 x hx)
    · rename_i hab
      refine List.pairwise_cons.2 ⟨fun x hx => ?_, ins_sorted a l (fun x hx y hy => ?_) h2⟩
      · rcases List.mem_cons.1 ((ins_perm a l).mem_iff.1 hx) with rfl | hx
        · exact (h x (by simp) b (by simp)).1.1 (by omega)
        · exact h1 x hx
      · have hm : ∀ w, w ∈ a :: l → w ∈ a :: b :: l := fun w hw => by rcases List.mem_cons.1 hw with h | h <;> simp [h]
        exact ⟨(h x (hm x hx) y (hm y hy)).1, fun z hz => (h x (hm x hx) y (hm y hy)).2 z (hm z hz)⟩

theorem isort_sorts : Sorts isort := by
  intro l
  induction l with
  | nil => intro _; exact ⟨.refl _, .nil⟩
  | cons a l ih =>
    intro h
    have hl := ih fun x hx y hy => ⟨(h x (by simp [hx]) y (by simp [hy])).1, fun z hz => (h x (by simp [hx]) y (by simp [hy])).2 z (by simp [hz])⟩
    refine ⟨isort_perm _, ins_sorted a _ (fun x hx y hy => ?_) hl.2⟩
    have hm : ∀ w, w ∈ a :: isort l → w ∈ a :: l := fun w hw => by
      rcases List.mem_cons.1 hw with rfl | hw
      · simp
      · exact List.mem_cons_of_mem _ (hl.1.mem_iff.1 hw)
    exact ⟨(h x (hm x hx) y (hm y hy)).1, fun z hz => (h x (hm x hx) y (hm y hy)).2 z (hm z hz)⟩

def exEnv (packages residue : List UInt8) : Env :=
  { reply := fine, packages := .ok packages, residue := residue, sort := isort, random := fun i => 5000 + i, patience := 3 }

def exConf (excluded included : Option CStr) : Conf :=
  { iface := b!"wg0", config := some b!"[Interface]\n", addrs := some b!"10.0.0.2/24,fd00::2/64", dnses := some b!"1.1.1.1", mtu := 1420, excluded := excluded, included := included }

/-- The commands for users in a run that succeeded. -/
def usersIn (r : Out Unit × List Ev) : Option (List CStr) := if r.1 = .exit 0 then some ((cmdsOf r.2).filter fun s => b!"ndc network users add ".isPrefixOf s) else none

/-- The hypotheses are met. -/
example : ∃ hist netid, cmdUp (exConf (some b!"com.b") none) (exEnv twoApps [0]) [] = (.exit 0, hist) ∧ Network hist netid ∧
    UserAdded (cmdsOf hist) netid 10001 ∧ ¬ UserAdded (cmdsOf hist) netid 10002 := by
  rcases hr : cmdUp (exConf (some b!"com.b") none) (exEnv twoApps [0]) [] with ⟨o, hist⟩
  have ho : o = .exit 0 := by
    have h1 : (cmdUp (exConf (some b!"com.b") none) (exEnv twoApps [0]) []).1 = .exit 0 := by decide +kernel
    rw [hr] at h1; exact h1
  subst ho
  obtain ⟨netid, h1, h2, h3, _⟩ := c85_excluded (e := exEnv twoApps [0]) (c := exConf (some b!"com.b") none) (sel := b!"com.b") rfl twoApps_list isort_sorts hr (by decide)
    (by decide) (.inl rfl) rfl
  refine ⟨hist, netid, rfl, h1, (h2 _ (by omega)).2 ?_, h3 _ ⟨b!"com.b", ⟨by decide, by decide, [], [], rfl, by simp, by simp⟩, by decide⟩⟩
  rintro ⟨n, _, hm⟩
  simp only [List.mem_cons, Prod.mk.injEq, List.not_mem_nil, or_false] at hm
  rename_i hn
  rcases hm with ⟨rfl, _⟩ | ⟨_, h⟩
  · rw [listed_none (by decide)] at hn
    exact absurd hn.1 (by decide)
  · omega

example : usersIn (cmdUp (exConf (some b!"com.a,com.b") none) (exEnv twoApps [0]) []) = some [b!"ndc network users add 5000 0-10000 10003-99999"] ∧
    usersIn (cmdUp (exConf none (some b!"com.a,com.b")) (exEnv twoApps [0]) []) = some [b!"ndc network users add 5000 10001 10002"] ∧
    usersIn (cmdUp (exConf none none) (exEnv twoApps [0]) []) = some [b!"ndc network users add 5000 0-99999"] ∧
    (cmdUp (exConf (some b!"com.a") (some b!"com.b")) (exEnv twoApps [0]) []).1 = .exit 17 := by decide +kernel

/-- The loop over the list goes on behind its terminator: what is left there from before is taken for names of applications. Here `com.a`
and `com.c` are excluded, but `com.b` does not use the tunnel either. -/
theorem c85_counterexample_leak : usersIn (cmdUp (exConf (some b!"com.a,com.c") none) (exEnv twoApps (b!"com.b" ++ [0, 0])) []) = some [b!"ndc network users add 5000 0-10000 10003-99999"] ∧
    ¬ Listed b!"com.a,com.c" b!"com.b" := by
  refine ⟨by decide +kernel, fun h => ?_⟩
  rw [show b!"com.a,com.c" = b!"com.a" ++ c!"," :: b!"com.c" from rfl, listed_cons (by decide), listed_none (by decide)] at h
  rcases h with h | h <;> exact absurd h.1 (by decide)

/-- It can even write outside of the array of uids. -/
theorem c85_counterexample_overflow : (cmdUp (exConf (some b!"com.a") none) (exEnv twoApps (b!"com.b" ++ [0, 0])) []).1 = .ub := by decide +kernel

/-- An empty list (`ExcludedApplications =`) is read behind its end. -/
theorem c85_counterexample_empty (e : Env) : getUidList e.packages e.residue e.sort (some []) = .ub := rfl

/-- If uid 99998 is excluded, 99999 is too. -/
theorem c85_counterexample_last : usersIn (cmdUp (exConf (some b!"com.z") none) (exEnv b!"com.z 99998 0 /data\n" [0]) []) = some [b!"ndc network users add 5000 0-99997"] := by
  decide +kernel

end WG.Android
