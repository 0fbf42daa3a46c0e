import Verif.Proof.QuickFw
/-!
Checkers for `TablesRun` and `IptRun`, for concrete histories.
-/
namespace WG.Quick
open Spec Spec.Quick

/-- Lines that end in line feeds. -/
def cutLines : List UInt8 → List UInt8 → List (List UInt8)
  | _, [] => []
  | acc, c :: s => if c = 10 then acc.reverse :: cutLines [] s else cutLines (c :: acc) s

def cutOk (t : List UInt8) : Bool := unlines (cutLines [] t) == t && (cutLines [] t).all fun l => !l.contains 10

theorem cut_of {t : List UInt8} (h : cutOk t = true) : ∃ ls, cutLines [] t = ls ∧ t = unlines ls ∧ ∀ l ∈ ls, (10 : UInt8) ∉ l := by
  unfold cutOk at h
  rw [Bool.and_eq_true, beq_iff_eq, List.all_eq_true] at h
  refine ⟨_, rfl, h.1.symm, fun l hl hc => ?_⟩
  have := h.2 l hl
  rw [List.contains_iff_mem.2 hc] at this
  cases this

def tableWf (t : NftTable) : Bool :=
  t.name != [] && (t.fam.all fun c => c != 32 && c != 9 && c != 10 && c != 0) && t.name.all fun c => c != 32 && c != 9 && c != 10 && c != 0

theorem tableWf_iff {t : NftTable} : tableWf t = true ↔ t.WF := by
  unfold tableWf
  simp only [Bool.and_eq_true, bne_iff_ne, List.all_eq_true, and_assoc]
  exact ⟨fun ⟨a, b, c⟩ => ⟨a, b, c⟩, fun ⟨a, b, c⟩ => ⟨a, b, c⟩⟩

/-- The table that a line adds. -/
def addOf (l : CStr) : Option NftTable :=
  if b!"add table ".isPrefixOf l then
    let s := l.drop 10
    let t : NftTable := ⟨s.takeWhile (· != 32), (s.dropWhile (· != 32)).drop 1⟩
    if tableWf t && b!"add " ++ t.text == l then some t else none
  else none

theorem addOf_iff {l : CStr} {t : NftTable} : addOf l = some t ↔ t.WF ∧ b!"add " ++ t.text = l := by
  unfold addOf
  constructor
  · intro h
    split at h
    · dsimp only at h
      split at h
      · rename_i h'
        cases h
        rw [Bool.and_eq_true, beq_iff_eq] at h'
        exact ⟨tableWf_iff.1 h'.1, h'.2⟩
      · cases h
    · cases h
  · rintro ⟨hw, rfl⟩
    have e : b!"add " ++ t.text = b!"add table " ++ (t.fam ++ 32 :: t.name) := by simp [NftTable.text]
    have hd : (b!"add " ++ t.text).drop 10 = t.fam ++ 32 :: t.name := by rw [e]; rfl
    have hf : ∀ c ∈ t.fam, (c != 32) = true := fun c hc => by simpa using (hw.fam c hc).1
    have ht : (t.fam ++ 32 :: t.name).takeWhile (· != 32) = t.fam := by
      rw [List.takeWhile_append_of_pos hf, List.takeWhile_cons_of_neg (by simp), List.append_nil]
    have hn : (t.fam ++ 32 :: t.name).dropWhile (· != 32) = 32 :: t.name := by
      rw [List.dropWhile_append_of_pos hf, List.dropWhile_cons_of_neg (by simp)]
    rw [if_pos (by rw [e, List.isPrefixOf_iff_prefix]; exact List.prefix_append _ _)]
    dsimp only
    rw [hd, ht, hn]
    have : (⟨t.fam, List.drop 1 (32 :: t.name)⟩ : NftTable) = t := rfl
    rw [this, if_pos]
    rw [Bool.and_eq_true, beq_iff_eq]
    exact ⟨tableWf_iff.2 hw, rfl⟩

def nftApply (l : List NftTable) (ls : List CStr) : List NftTable :=
  (l ++ ls.filterMap addOf).filter fun t => !ls.contains (b!"delete " ++ t.text)

theorem nftApply_set {l : List NftTable} {ls : List CStr} :
    {t | t ∈ nftApply l ls} = {t | (t ∈ {t | t ∈ l} ∨ (t.WF ∧ b!"add " ++ t.text ∈ ls)) ∧ b!"delete " ++ t.text ∉ ls} := by
  ext t
  simp only [Set.mem_ofPred_eq, nftApply, List.mem_filter, List.mem_append, List.mem_filterMap, addOf_iff, Bool.not_eq_true', List.contains_eq_mem, decide_eq_false_iff_not]
  refine and_congr_left fun _ => or_congr_right ?_
  constructor
  · rintro ⟨a, h, h1, rfl⟩; exact ⟨h1, h⟩
  · rintro ⟨h1, h⟩; exact ⟨_, h, h1, rfl⟩

def nftStep (l : List NftTable) (e : Ev) : Option (List NftTable) :=
  match e.1 with
  | .query (p :: args) =>
    if p == b!"nft" then
      if args == [b!"list", b!"tables"] && e.2.out == unlines (l.map NftTable.text) then some l else none
    else some l
  | .act (p :: args) t =>
    if p == b!"nft" then
      if args == [b!"-f"] then
        if e.2.status = 0 then
          if cutOk t then some (nftApply l (cutLines [] t)) else none
        else some l
      else none
    else some l
  | _ => some l

def nftSim : List NftTable → List Ev → Option (List NftTable)
  | l, [] => some l
  | l, e :: h => (nftStep l e).bind fun q => nftSim q h

theorem nftStep_sound {l q : List NftTable} {e : Ev} (hs : nftStep l e = some q) {h : List Ev} {T : Set NftTable} (hr : TablesRun {t | t ∈ q} h T) :
    TablesRun {t | t ∈ l} (e :: h) T := by
  obtain ⟨c, r⟩ := e
  unfold nftStep at hs
  dsimp only at hs
  split at hs
  · rename_i p args
    split at hs
    · rename_i hp
      rw [beq_iff_eq] at hp
      split at hs
      · rename_i h1
        rw [Bool.and_eq_true, beq_iff_eq, beq_iff_eq] at h1
        obtain ⟨rfl, h2⟩ := h1
        cases hs
        subst hp
        exact .listed (ts := l) (fun _ => Iff.rfl) h2 hr
      · cases hs
    · rename_i hp
      cases hs
      refine .other (by intro _ _ h; cases h) (fun a h => ?_) hr
      simp only [Call.query.injEq, List.cons.injEq] at h
      exact hp (by simp [h.1])
  · rename_i p args t
    split at hs
    · rename_i hp
      rw [beq_iff_eq] at hp
      split at hs
      · rename_i ha
        rw [beq_iff_eq] at ha
        subst hp ha
        split at hs
        · rename_i h0
          split at hs
          · rename_i hc
            cases hs
            obtain ⟨ls, e1, e2, h10⟩ := cut_of hc
            rw [e1, nftApply_set] at hr
            rw [e2]
            exact .done h0 h10 hr
          · cases hs
        · rename_i h0
          cases hs
          exact .failed h0 hr
      · cases hs
    · rename_i hp
      cases hs
      refine .other (fun a t h => ?_) (by intro _ h; cases h) hr
      simp only [Call.act.injEq, List.cons.injEq] at h
      exact hp (by simp [h.1.1])
  · rename_i h1 h2
    cases hs
    exact .other (fun a t h => h2 _ _ _ h) (fun a h => h1 _ _ h) hr

/-- A history that passes the check is one of `TablesRun`. -/
theorem nftSim_sound {p q : List NftTable} {h : List Ev} (hs : nftSim p h = some q) : TablesRun {t | t ∈ p} h {t | t ∈ q} := by
  induction h generalizing p with
  | nil => cases hs; exact .nil
  | cons e h ih =>
    unfold nftSim at hs
    rw [Option.bind_eq_some_iff] at hs
    obtain ⟨p', h1, h2⟩ := hs
    exact nftStep_sound h1 (ih h2)

/-! ### iptables -/

def trimCheck (l : CStr) : Bool := (l.head?.all fun c => !spaceTab c) && l.getLast?.all fun c => !spaceTab c

theorem trimmed_of_check {l : CStr} (h : trimCheck l = true) : Trimmed spaceTab l l := by
  unfold trimCheck at h
  rw [Bool.and_eq_true, Option.all_eq_true, Option.all_eq_true] at h
  refine ⟨[], [], by simp, by simp, by simp, fun c hc => ?_, fun c hc => ?_⟩
  · simpa using h.1 c hc
  · simpa using h.2 c hc

def listingCheck (ts : List IptTable) (out : List UInt8) : Bool :=
  cutOk out && ((cutLines [] out).all fun l => trimCheck l && l.all fun c => c != 10 && c != 0) &&
  (cutLines [] out).filter (fun l => decide (l.head? ≠ some c!"#")) == ts.flatMap IptTable.lines && decide (ts.map IptTable.name).Nodup &&
  ts.all fun t => t.chains.all fun l => l.head? == some c!":"

theorem listing_of {ts : List IptTable} {out : List UInt8} (h : listingCheck ts out = true) : IptListing ts out := by
  unfold listingCheck at h
  simp only [Bool.and_eq_true, decide_eq_true_eq, beq_iff_eq, List.all_eq_true, bne_iff_ne] at h
  obtain ⟨⟨⟨⟨h1, h2⟩, h3⟩, h4⟩, h5⟩ := h
  obtain ⟨ls, e1, e2, _⟩ := cut_of h1
  rw [e1] at h2 h3
  exact ⟨ls, e2, fun l hl => ⟨trimmed_of_check (h2 l hl).1, (h2 l hl).2⟩, h3, h4, h5⟩

/-- The first table with the name, changed. -/
def editTable (n : CStr) (f : IptTable → Option IptTable) : List IptTable → Option (List IptTable)
  | [] => none
  | t :: ts => if t.name = n then (f t).map (· :: ts) else (editTable n f ts).map (t :: ·)

theorem editTable_some {n : CStr} {f : IptTable → Option IptTable} {ts ts' : List IptTable} (h : editTable n f ts = some ts') :
    ∃ a t t' b, ts = a ++ t :: b ∧ ts' = a ++ t' :: b ∧ f t = some t' ∧ t.name = n ∧ ∀ x ∈ a, x.name ≠ n := by
  induction ts generalizing ts' with
  | nil => cases h
  | cons t ts ih =>
    unfold editTable at h
    split at h
    · rename_i hn
      rw [Option.map_eq_some_iff] at h
      obtain ⟨t', h1, rfl⟩ := h
      exact ⟨[], t, t', ts, rfl, rfl, h1, hn, by simp⟩
    · rename_i hn
      rw [Option.map_eq_some_iff] at h
      obtain ⟨k, h1, rfl⟩ := h
      obtain ⟨a, x, x', b, rfl, rfl, h2, h3, h4⟩ := ih h1
      refine ⟨t :: a, x, x', b, rfl, rfl, h2, h3, fun z hz => ?_⟩
      rcases List.mem_cons.1 hz with rfl | hz
      · exact hn
      · exact h4 z hz

def restoreLine (cur : Option CStr) (ts : List IptTable) (l : CStr) : Option (Option CStr × List IptTable) :=
  if l = b!"COMMIT" then some (none, ts)
  else if l.head? = some c!"*" then some (some (l.drop 1), ts)
  else match cur with
    | none => none
    | some n =>
      if b!"-D ".isPrefixOf l then
        (editTable n (fun t => if l.drop 3 ∈ t.rules then some { t with rules := t.rules.erase (l.drop 3) } else none) ts).map ((some n, ·))
      else if b!"-I ".isPrefixOf l then
        (editTable n (fun t => some { t with rules := l.drop 3 :: t.rules }) ts).map ((some n, ·))
      else none

theorem restoreLine_sound {cur cur' : Option CStr} {ts ts' : List IptTable} {l : CStr} (h : restoreLine cur ts l = some (cur', ts')) :
    RestoreLine cur ts l cur' ts' := by
  unfold restoreLine at h
  split at h
  · rename_i hl; subst hl; cases h; exact .commit
  split at h
  · rename_i hl
    cases l with
    | nil => cases hl
    | cons x l =>
      simp only [List.head?_cons, Option.some.injEq] at hl
      subst hl
      cases h
      exact .select
  split at h
  · cases h
  rename_i n
  split at h
  · rename_i hp
    rw [List.isPrefixOf_iff_prefix] at hp
    obtain ⟨r, rfl⟩ := hp
    rw [Option.map_eq_some_iff] at h
    obtain ⟨k, h1, h2⟩ := h
    cases h2
    obtain ⟨a, t, t', b, rfl, rfl, h3, h4, h5⟩ := editTable_some h1
    have e : List.drop 3 (b!"-D " ++ r) = r := rfl
    rw [e] at h3
    split at h3
    · rename_i hm; cases h3; exact .delete h4 hm h5
    · cases h3
  split at h
  · rename_i hp
    rw [List.isPrefixOf_iff_prefix] at hp
    obtain ⟨r, rfl⟩ := hp
    rw [Option.map_eq_some_iff] at h
    obtain ⟨k, h1, h2⟩ := h
    cases h2
    obtain ⟨a, t, t', b, rfl, rfl, h3, h4, h5⟩ := editTable_some h1
    cases h3
    exact .insert h4 fun _ => Iff.rfl
  · cases h

def restoreAll : Option CStr → List IptTable → List CStr → Option (List IptTable)
  | _, ts, [] => some ts
  | cur, ts, l :: ls => (restoreLine cur ts l).bind fun p => restoreAll p.1 p.2 ls

theorem restoreAll_sound {cur : Option CStr} {ts ts' : List IptTable} {ls : List CStr} (h : restoreAll cur ts ls = some ts') : Restore cur ts ls ts' := by
  induction ls generalizing cur ts with
  | nil => cases h; exact .nil
  | cons l ls ih =>
    unfold restoreAll at h
    rw [Option.bind_eq_some_iff] at h
    obtain ⟨⟨c, t⟩, h1, h2⟩ := h
    exact .cons (restoreLine_sound h1) (ih h2)

/-- The tables of the two commands. -/
structure Ipts where
  four : List IptTable
  six : List IptTable
deriving DecidableEq

def Ipts.tables (p : Ipts) : IptTables := fun f => if f = b!"iptables" then p.four else if f = b!"ip6tables" then p.six else []
def Ipts.set (p : Ipts) (f : CStr) (l : List IptTable) : Ipts := if f = b!"iptables" then { p with four := l } else { p with six := l }

theorem Ipts.set_tables {p : Ipts} {f : CStr} {l : List IptTable} (h : f = b!"iptables" ∨ f = b!"ip6tables") :
    (p.set f l).tables = Function.update p.tables f l := by
  funext g
  rcases h with rfl | rfl
  · unfold Ipts.set
    rw [if_pos rfl]
    by_cases hg : g = b!"iptables"
    · subst hg; rw [Function.update_self]; rfl
    · rw [Function.update_of_ne hg]; unfold Ipts.tables; rw [if_neg hg, if_neg hg]
  · unfold Ipts.set
    rw [if_neg (by decide)]
    by_cases hg : g = b!"ip6tables"
    · subst hg; rw [Function.update_self]; rfl
    · rw [Function.update_of_ne hg]; unfold Ipts.tables; rw [if_neg hg, if_neg hg]

def iptName (suf q : CStr) : Option CStr :=
  if q = b!"iptables" ++ suf then some b!"iptables" else if q = b!"ip6tables" ++ suf then some b!"ip6tables" else none

theorem iptName_some {suf q i : CStr} (h : iptName suf q = some i) : q = i ++ suf ∧ (i = b!"iptables" ∨ i = b!"ip6tables") := by
  unfold iptName at h
  split at h
  · rename_i e; cases h; exact ⟨e, .inl rfl⟩
  split at h
  · rename_i e; cases h; exact ⟨e, .inr rfl⟩
  · cases h

def iptStep (p : Ipts) (e : Ev) : Option Ipts :=
  match e.1 with
  | .query [q] =>
    match iptName b!"-save" q with
    | some i => if listingCheck (p.tables i) e.2.out then some p else none
    | none => if b!"-save".isSuffixOf q then none else some p
  | .act [q, n] t =>
    match iptName b!"-restore" q with
    | some i =>
      if n == b!"-n" && cutOk t then
        if e.2.status = 0 then (restoreAll none (p.tables i) (cutLines [] t)).map (p.set i) else some p
      else none
    | none => if b!"-restore".isSuffixOf q then none else some p
  | _ => some p

def iptSim : Ipts → List Ev → Option Ipts
  | p, [] => some p
  | p, e :: h => (iptStep p e).bind fun q => iptSim q h

theorem Ipts.same {p : Ipts} (i : CStr) : Function.update p.tables i (p.tables i) = p.tables := Function.update_eq_self i _

theorem iptStep_sound {p q : Ipts} {e : Ev} (hs : iptStep p e = some q) {h : List Ev} {S : IptTables} (hr : IptRun q.tables h S) :
    IptRun p.tables (e :: h) S := by
  obtain ⟨c, r⟩ := e
  unfold iptStep at hs
  dsimp only at hs
  split at hs
  · rename_i x
    split at hs
    · rename_i i hi
      obtain ⟨rfl, _⟩ := iptName_some hi
      split at hs
      · rename_i hl; cases hs; exact .listed (listing_of hl) hr
      · cases hs
    · split at hs
      · cases hs
      · rename_i hn
        cases hs
        refine .other (fun i h => ?_) (by intro _ _ h; cases h) hr
        simp only [Call.query.injEq, List.cons.injEq, and_true] at h
        subst h
        exact hn (List.isSuffixOf_iff_suffix.2 (List.suffix_append _ _))
  · rename_i x n t
    split at hs
    · rename_i i hi
      obtain ⟨rfl, hi'⟩ := iptName_some hi
      split at hs
      · rename_i hc
        rw [Bool.and_eq_true, beq_iff_eq] at hc
        obtain ⟨rfl, hc⟩ := hc
        obtain ⟨ls, e1, e2, h10⟩ := cut_of hc
        rw [e1] at hs
        rw [e2]
        split at hs
        · rename_i h0
          rw [Option.map_eq_some_iff] at hs
          obtain ⟨ts, h1, rfl⟩ := hs
          rw [Ipts.set_tables hi'] at hr
          exact .restored h0 h10 (restoreAll_sound h1) hr
        · rename_i h0
          cases hs
          refine IptRun.failed (lines := []) (rest := ls) (ts := p.tables i) h0 (by simpa using h10) .nil ?_
          rw [Ipts.same]; exact hr
      · cases hs
    · split at hs
      · cases hs
      · rename_i hn
        cases hs
        refine .other (by intro _ h; cases h) (fun i t h => ?_) hr
        simp only [Call.act.injEq, List.cons.injEq, and_true] at h
        obtain ⟨⟨rfl, _⟩, _⟩ := h
        exact hn (List.isSuffixOf_iff_suffix.2 (List.suffix_append _ _))
  · rename_i h1 h2
    cases hs
    exact .other (fun i h => h1 _ h) (fun i t h => h2 _ _ _ h) hr

/-- A history that passes the check is one of `IptRun`. -/
theorem iptSim_sound {p q : Ipts} {h : List Ev} (hs : iptSim p h = some q) : IptRun p.tables h q.tables := by
  induction h generalizing p with
  | nil => cases hs; exact .nil
  | cons e h ih =>
    unfold iptSim at hs
    rw [Option.bind_eq_some_iff] at hs
    obtain ⟨p', h1, h2⟩ := hs
    exact iptStep_sound h1 (ih h2)

/-! ### A system that behaves -/

def nftAfter (l : List NftTable) (h : List Ev) : List NftTable := h.foldl (fun l e => (nftStep l e).getD l) l
def iptAfter (p : Ipts) (h : List Ev) : Ipts := h.foldl (fun p e => (iptStep p e).getD p) p

/-- The world in which nft and iptables list their tables; everything else as in `w`. -/
def withFw (l : List NftTable) (p : Ipts) (w : World) : World := fun h c =>
  if c = .query [b!"nft", b!"list", b!"tables"] then ⟨0, unlines ((nftAfter l h).map NftTable.text), false⟩
  else if c = .query [b!"iptables-save"] then ⟨0, unlines (b!"# Generated by iptables-save" :: (iptAfter p h).four.flatMap IptTable.lines), false⟩
  else if c = .query [b!"ip6tables-save"] then ⟨0, unlines ((iptAfter p h).six.flatMap IptTable.lines), false⟩
  else w h c

end WG.Quick
