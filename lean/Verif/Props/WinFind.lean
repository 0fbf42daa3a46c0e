import Verif.Proof.WinFind
import Verif.Proof.WindowsGet
/-! C70: finding adapters and pipes on Windows. -/
namespace WG
open Spec hiding named
open Spec.Win

/-! ### What is remembered -/

/-- C70. The hash table is a map, whatever the names and however they collide: an inserted name is found with the value it had or, if it was new, the given one; setting a value changes it;
no other name is touched. Without memory nothing is inserted, and this is reported. -/
theorem c70_hash {α : Type} (sc : Bool) (t : Win.Table α) (name other : CStr) (v : α) (h : other ≠ name) :
    ((Win.findOrInsert sc t name true v).1 = true ∧
      Win.findEntry sc (Win.findOrInsert sc t name true v).2 name = some ((Win.findEntry sc t name).getD v) ∧
      Win.findEntry sc (Win.findOrInsert sc t name true v).2 other = Win.findEntry sc t other) ∧
    ((Win.findOrInsert sc t name false v).2 = t ∧ (Win.findOrInsert sc t name false v).1 = (Win.findEntry sc t name).isSome) ∧
    ((Win.findEntry sc t name).isSome = true →
      Win.findEntry sc (Win.setValue sc t name v) name = some v ∧ Win.findEntry sc (Win.setValue sc t name v) other = Win.findEntry sc t other) ∧
    Win.findEntry sc (fun _ => [] : Win.Table α) name = none := by
  refine ⟨⟨Win.insert_true sc t name v, ?_, ?_⟩, ?_, fun hs => ⟨?_, ?_⟩, rfl⟩
  · rw [Win.find_insert, if_pos rfl]
  · rw [Win.find_insert, if_neg h]
  · rw [Win.findOrInsert]
    cases Win.findEntry sc t name <;> exact ⟨rfl, rfl⟩
  · rw [Win.find_set sc t name name v hs, if_pos rfl]
  · rw [Win.find_set sc t name other v hs, if_neg h]

/-! ### Adapters -/

/-- C70. Listing: the names of all running adapters, in order; of every adapter, running or not, the identifier is remembered (the last one's, if several have the name). -/
theorem c70_list (heap : Heap) (hheap : ∀ n, heap.fail n = none) (env : Win.SetupEnv) (l : List (Option Adapter)) (hsh : Win.Shows env l) (fuel : Nat) (hf : l.length < fuel)
    (hsz : (nameBuffer (runningNames l)).length < 2 ^ 61) :
    ∃ sl c, Win.kernelList heap env fuel {} {} = .ok (0, sl, c) ∧ Content sl (runningNames l) ∧ c.have_ = true ∧
      ∀ name, Win.findEntry env.sc c.table name = (named l name).getLast?.map fun a => some a.inst := by
  obtain ⟨h1, h2, h3⟩ := hsh
  obtain ⟨sl, t, g1, g2, g3⟩ := Win.listLoop_spec heap env hheap l 0 fuel {} [] (fun _ => []) (.empty 0) (by simpa using h3) (by simpa using h2) hf (by simpa using hsz)
  refine ⟨sl, ⟨true, t⟩, ?_, by simpa using g2.content, rfl, fun name => ?_⟩
  · rw [Win.kernelList, if_neg (by simp [h1]), g1, Obsd.okb]
  · rw [g3, Win.lastInst]
    cases (named l name).getLast? <;> rfl

theorem named_unique {l : List (Option Adapter)} (hu : UniqueNames l) {a : Adapter} (ha : some a ∈ l) : named l a.name = [a] := by
  have hm : a ∈ l.filterMap id := by rw [List.mem_filterMap]; exact ⟨some a, ha, rfl⟩
  rw [UniqueNames] at hu
  rw [named]
  revert hu hm
  generalize l.filterMap id = k
  induction k with
  | nil => intro _ h; cases h
  | cons b k ih =>
    intro hu hm
    rw [List.map_cons, List.nodup_cons] at hu
    rcases List.mem_cons.1 hm with rfl | hm
    · rw [List.filter_cons_of_pos (by simp)]
      congr 1
      rw [List.filter_eq_nil_iff]
      intro b hb
      simp only [decide_eq_true_eq]
      intro e
      exact hu.1 (List.mem_map.2 ⟨b, hb, e⟩)
    · rw [List.filter_cons_of_neg (by
        simp only [decide_eq_true_eq]
        intro e
        exact hu.1 (List.mem_map.2 ⟨a, hm, e.symm⟩))]
      exact ih hu.2 hm

theorem named_none {l : List (Option Adapter)} {name : CStr} (h : ∀ a, some a ∈ l → a.name ≠ name) : named l name = [] := by
  rw [named, List.filter_eq_nil_iff]
  intro a ha
  rw [List.mem_filterMap] at ha
  obtain ⟨x, hx, e⟩ := ha
  simp only [id] at e
  subst e
  simpa using h a hx

/-- What is remembered agrees with the adapters: nothing is, or it is from a listing. -/
def Win.Fresh (env : Win.SetupEnv) (l : List (Option Adapter)) (c : Win.Cache) : Prop :=
  c.have_ = true → ∀ name, Win.findEntry env.sc c.table name = (named l name).getLast?.map fun a => some a.inst

/-- C70. Opening: the adapter that has the name is opened, over its interface, whether adapters have been listed before or not; a name that no adapter has is ENOENT, and an adapter
that cannot be opened EACCES. -/
theorem c70_open (env : Win.SetupEnv) (l : List (Option Adapter)) (hsh : Win.Shows env l) (hu : UniqueNames l) (c : Win.Cache) (hc : Win.Fresh env l c) (errno fuel : Nat)
    (hf : l.length < fuel) :
    (∀ a path, some a ∈ l → env.ifaces (some a.inst) = some path →
      Win.interfaceHandle env c errno a.name fuel = .ok (if env.openPath path then .ok path else .error 13)) ∧
    (∀ a, some a ∈ l → env.ifaces (some a.inst) = none → Win.interfaceHandle env c errno a.name fuel = .ok (.error (if c.have_ then 13 else 2))) ∧
    ∀ name, (∀ a, some a ∈ l → a.name ≠ name) → Win.interfaceHandle env c errno name fuel = .ok (.error 2) := by
  obtain ⟨h1, h2, h3⟩ := hsh
  have hloop := fun k => Win.findLoop_spec env k l 0 fuel (by simpa using h3) (by simpa using h2) hf
  refine ⟨fun a path ha hp => ?_, fun a ha hp => ?_, fun name hn => ?_⟩
  · have hfp : Win.firstPath env l a.name = some path := by rw [Win.firstPath, named_unique hu ha]; simp [hp]
    rw [Win.interfaceHandle]
    cases hv : c.have_ with
    | true =>
      rw [if_pos rfl, hc hv, named_unique hu ha]
      simp only [List.getLast?_singleton, Option.map_some, hp]
      cases env.openPath path <;> rfl
    | false =>
      rw [if_neg (by simp)]
      dsimp only
      rw [if_neg (by simp [h1]), hloop, Obsd.okb, hfp]
      dsimp only
      cases env.openPath path <;> rfl
  · have hfp : Win.firstPath env l a.name = none := by rw [Win.firstPath, named_unique hu ha]; simp [hp]
    rw [Win.interfaceHandle]
    cases hv : c.have_ with
    | true =>
      rw [if_pos rfl, hc hv, named_unique hu ha]
      simp only [List.getLast?_singleton, Option.map_some, hp]
      rfl
    | false =>
      rw [if_neg (by simp)]
      dsimp only
      rw [if_neg (by simp [h1]), hloop, Obsd.okb, hfp]
      rfl
  · have hfp : Win.firstPath env l name = none := by rw [Win.firstPath, named_none hn]; rfl
    have hnone : (if c.have_ then Win.findEntry env.sc c.table name else none) = none := by
      cases hv : c.have_ with
      | true => rw [if_pos rfl, hc hv, named_none hn]; rfl
      | false => rfl
    rw [Win.interfaceHandle, hnone]
    dsimp only
    rw [if_neg (by simp [h1]), hloop, Obsd.okb, hfp]

/-! ### Pipes -/

/-- C70. A stream to a userspace implementation is only ever a pipe that the local system owns, and only the one with the name; whatever else happens the operation fails with EACCES or
the error of the C library, and the pipe, if it was opened, is closed — unless turning it into a stream fails at the last step. -/
theorem c70_pipe_owner (env : Win.PipeEnv) (name : CStr) (hn : name.length ≤ 209) (r : Except Nat CStr) (evs : List Win.PipeEv) (h : Win.interfaceFile env name = (r, evs)) :
    (r = .ok (b!"\\\\.\\pipe\\" ++ pipeFile name) ∧ env.owner (b!"\\\\.\\pipe\\" ++ pipeFile name) = some true ∧ evs = [.opened (b!"\\\\.\\pipe\\" ++ pipeFile name)]) ∨
    ∃ e, r = .error e ∧
      ((e = 13 ∧ (evs = [] ∨ evs = [.opened (b!"\\\\.\\pipe\\" ++ pipeFile name), .closed (b!"\\\\.\\pipe\\" ++ pipeFile name)])) ∨
       (env.osfhandle = some e ∧ evs = [.opened (b!"\\\\.\\pipe\\" ++ pipeFile name), .closed (b!"\\\\.\\pipe\\" ++ pipeFile name)]) ∨
       (env.osfhandle = none ∧ env.fdopen = some e ∧ evs = [.opened (b!"\\\\.\\pipe\\" ++ pipeFile name)])) := by
  have hlen : (b!"\\\\.\\pipe\\" ++ Win.pipePrefix ++ name).take 259 = b!"\\\\.\\pipe\\" ++ pipeFile name := by
    rw [List.take_of_length_le]
    · rw [List.append_assoc]; rfl
    · rw [List.length_append, show (b!"\\\\.\\pipe\\" ++ Win.pipePrefix).length = 50 from by decide]; omega
  rw [Win.interfaceFile, hlen] at h
  revert h
  generalize b!"\\\\.\\pipe\\" ++ pipeFile name = path
  intro h
  by_cases hs : env.sid = true
  · rw [if_neg (by simp [hs])] at h
    by_cases hcr : env.create path = true
    · rw [if_neg (by simp [hcr])] at h
      match ho : env.owner path with
      | none => rw [ho] at h; cases h; exact .inr ⟨13, rfl, .inl ⟨rfl, .inr rfl⟩⟩
      | some false => rw [ho] at h; cases h; exact .inr ⟨13, rfl, .inl ⟨rfl, .inr rfl⟩⟩
      | some true =>
        rw [ho] at h
        dsimp only at h
        cases h1 : env.osfhandle with
        | some e => rw [h1] at h; cases h; exact .inr ⟨e, rfl, .inr (.inl ⟨rfl, rfl⟩)⟩
        | none =>
          rw [h1] at h
          dsimp only at h
          cases h2 : env.fdopen with
          | some e => rw [h2] at h; cases h; exact .inr ⟨e, rfl, .inr (.inr ⟨rfl, rfl, rfl⟩)⟩
          | none => rw [h2] at h; cases h; exact .inl ⟨rfl, rfl, rfl⟩
    · rw [if_pos hcr] at h; cases h; exact .inr ⟨13, rfl, .inl ⟨rfl, .inl rfl⟩⟩
  · rw [if_pos hs] at h; cases h; exact .inr ⟨13, rfl, .inl ⟨rfl, .inl rfl⟩⟩

theorem mem_pipeNames (files : List CStr) (name : CStr) : name ∈ pipeNames files ↔ pipeFile name ∈ files := by
  rw [pipeNames, List.mem_filterMap]
  constructor
  · rintro ⟨f, hf, h⟩
    by_cases hp : pipeFile [] <+: f
    · rw [if_pos hp] at h
      cases h
      obtain ⟨r, rfl⟩ := hp
      rw [List.drop_left]
      rwa [Win.pipeFile_eq] at hf ⊢
    · rw [if_neg hp] at h; cases h
  · intro h
    refine ⟨_, h, ?_⟩
    rw [if_pos (by rw [Win.pipeFile_eq, Win.pipeFile_eq, List.append_nil]; exact List.prefix_append _ _)]
    rw [Win.pipeFile_eq, Win.pipeFile_eq, List.append_nil, List.drop_left]

/-- What is remembered agrees with the pipes: nothing is, or it is from a listing. -/
def Win.PipeFresh (env : Win.PipeEnv) (files : List CStr) (c : Win.PipeCache) : Prop :=
  c.have_ = true → ∀ name, (Win.findEntry env.sc c.table name).isSome = true ↔ name ∈ pipeNames files

/-- C70. Listing pipes: the names of all of them, and whether a name has a pipe is answered alike before and after. -/
theorem c70_pipes (heap : Heap) (hheap : ∀ n, heap.fail n = none) (env : Win.PipeEnv) (files : List CStr) (h1 : env.files = some files) (h2 : ∀ n, env.mem n = none)
    (sl : StrList) (old : List CStr) (hs : Holds sl old) (hsz : (nameBuffer (old ++ (pipeNames files).filter (· ≠ []))).length < 2 ^ 61) :
    ∃ sl' c, Win.pipeList heap env sl {} = .ok (0, sl', c) ∧ Content sl' (old ++ (pipeNames files).filter (· ≠ [])) ∧ c.have_ = true ∧ Win.PipeFresh env files c := by
  obtain ⟨sl', t, g1, g2, g3⟩ := Win.pipeLoop_spec heap env hheap h2 files 0 sl old (fun _ => []) hs hsz
  refine ⟨sl', ⟨true, t⟩, ?_, g2.content, rfl, fun _ name => ?_⟩
  · rw [Win.pipeList, h1]
    dsimp only
    rw [g1, Obsd.okb]
    rfl
  · rw [g3]
    simp [Win.findEntry]

theorem c70_has_pipe (env : Win.PipeEnv) (files : List CStr) (h1 : env.files = some files) (c : Win.PipeCache) (hc : Win.PipeFresh env files c) (name : CStr) (hn : name.length ≤ 218) :
    Win.hasInterface env c name = true ↔ name ∈ pipeNames files := by
  rw [Win.hasInterface]
  cases hv : c.have_ with
  | true => rw [if_pos rfl]; exact hc hv name
  | false =>
    rw [if_neg (by simp), h1, mem_pipeNames]
    dsimp only
    rw [List.take_of_length_le (by rw [List.length_append, show Win.pipePrefix.length = 41 from by decide]; omega), List.any_eq_true]
    simp only [decide_eq_true_eq]
    constructor
    · rintro ⟨f, hf, rfl⟩; exact hf
    · intro h; exact ⟨_, h, rfl⟩

/-! ### ipc.c -/

theorem Win.pipeLoop_failed (heap : Heap) (env : Win.PipeEnv) : ∀ (fs : List CStr) (n : Nat) (sl : StrList) (t : Win.Table Unit) (r : Int × StrList × Win.Table Unit × Bool),
    Win.pipeLoop heap env n fs sl t = .ok r → r.1 ≠ 0 → r.2.2.2 = false
  | [], n, sl, t, r, h, hr => by cases h; exact absurd rfl hr
  | f :: fs, n, sl, t, r, h, hr => by
    rw [Win.pipeLoop] at h
    by_cases h1 : f.take Win.pipePrefix.length ≠ Win.pipePrefix
    · rw [if_pos h1] at h; exact Win.pipeLoop_failed heap env fs _ _ _ _ h hr
    rw [if_neg h1] at h
    dsimp only at h
    cases ha : stringListAdd heap sl (f.drop Win.pipePrefix.length) with
    | ok a =>
      rw [ha] at h
      simp only [Res.bind] at h
      by_cases h2 : a.1 < 0
      · rw [if_pos h2] at h; cases h; rfl
      rw [if_neg h2] at h
      cases hf : Win.findOrInsert env.sc t (f.drop Win.pipePrefix.length) (env.mem n).isNone () with
      | mk b t' =>
        rw [hf] at h
        cases b with
        | false => cases h; rfl
        | true => exact Win.pipeLoop_failed heap env fs _ _ _ _ h hr
    | _ => rw [ha] at h; cases h

/-- C70: a list that could not be completed is not remembered, so what is said of pipes afterwards is still true. -/
theorem c70_failed_list (heap : Heap) (env : Win.PipeEnv) (files : List CStr) (h1 : env.files = some files) (sl sl' : StrList) (code : Int) (c : Win.PipeCache)
    (h : Win.pipeList heap env sl {} = .ok (code, sl', c)) (hc : code ≠ 0) (name : CStr) (hn : name.length ≤ 218) : Win.hasInterface env c name = true ↔ name ∈ pipeNames files := by
  rw [Win.pipeList, h1] at h
  dsimp only at h
  cases hl : Win.pipeLoop heap env 0 files sl (({} : Win.PipeCache).table) with
  | ok r =>
    rw [hl] at h
    simp only [Res.bind] at h
    injection h with h
    injection h with h2 h3
    injection h3 with h3 h4
    have hf := Win.pipeLoop_failed heap env files 0 sl _ r hl (by rw [h2]; exact hc)
    have hh : c.have_ = false := by rw [← h4, hf]; rfl
    exact c70_has_pipe env files h1 c (fun hx => by rw [hh] at hx; cases hx) name hn
  | _ => rw [hl] at h; cases h

-- the second name does not fit into memory
example : ∃ sl c, Win.pipeList ⟨fun _ => none, fun _ _ => 0⟩ { sc := true, files := some [Win.pipePrefix ++ b!"a", Win.pipePrefix ++ b!"b"], mem := fun n => if n = 1 then some 12 else none, sid := true, create := fun _ => true, owner := fun _ => none, osfhandle := none, fdopen := none }
    {} {} = .ok (-12, sl, c) := ⟨_, _, rfl⟩

/-- C70. `wg show interfaces` lists the running adapters and the pipes. -/
theorem c70_list_devices (heap : Heap) (hheap : ∀ n, heap.fail n = none) (env : Win.SetupEnv) (l : List (Option Adapter)) (hsh : Win.Shows env l) (fuel : Nat) (hf : l.length < fuel)
    (penv : Win.PipeEnv) (files : List CStr) (h1 : penv.files = some files) (h2 : ∀ n, penv.mem n = none)
    (hsz : (nameBuffer (runningNames l ++ (pipeNames files).filter (· ≠ []))).length < 2 ^ 61) :
    ∃ sl c pc, Win.listDevices heap env penv fuel {} {} = .ok (0, sl, c, pc) ∧ Content sl (runningNames l ++ (pipeNames files).filter (· ≠ [])) ∧
      Win.Fresh env l c ∧ Win.PipeFresh penv files pc := by
  obtain ⟨k1, k2, k3⟩ := hsh
  obtain ⟨sl, t, g1, g2, g3⟩ := Win.listLoop_spec heap env hheap l 0 fuel {} [] (fun _ => []) (.empty 0) (by simpa using k3) (by simpa using k2) hf
    (by simpa using Nat.lt_of_le_of_lt (nameBuffer_append_length _ _) hsz)
  rw [List.nil_append] at g2
  obtain ⟨sl', pc, e1, e2, -, e4⟩ := c70_pipes heap hheap penv files h1 h2 sl _ g2 hsz
  refine ⟨sl', ⟨true, t⟩, pc, ?_, e2, fun _ name => ?_, e4⟩
  · rw [Win.listDevices, Win.kernelList, if_neg (by simp [k1]), g1, Obsd.okb, Obsd.okb]
    dsimp only
    rw [if_neg (by decide), e1]
  · rw [g3, Win.lastInst]
    cases (named l name).getLast? <;> rfl

/-- C70. Where an operation on a name goes, after a listing as without: to the pipe with that name, if there is one, never to the driver then; else to the adapter with that name; else nowhere,
with ENOENT. -/
theorem c70_goes (env : Win.SetupEnv) (l : List (Option Adapter)) (hsh : Win.Shows env l) (hu : UniqueNames l) (c : Win.Cache) (hc : Win.Fresh env l c)
    (penv : Win.PipeEnv) (files : List CStr) (h1 : penv.files = some files) (pc : Win.PipeCache) (hpc : Win.PipeFresh penv files pc) (errno fuel : Nat) (hf : l.length < fuel)
    (name : CStr) (hn : name.length ≤ 209) :
    (name ∈ pipeNames files → Win.goesTo env penv c pc errno name fuel = .ok (.pipe (b!"\\\\.\\pipe\\" ++ pipeFile name)) ∨
      ∃ e, Win.goesTo env penv c pc errno name fuel = .ok (.nowhere e)) ∧
    (name ∉ pipeNames files → ∀ a path, some a ∈ l → a.name = name → env.ifaces (some a.inst) = some path →
      Win.goesTo env penv c pc errno name fuel = .ok (if env.openPath path then .driver path else .nowhere 13)) ∧
    (name ∉ pipeNames files → (∀ a, some a ∈ l → a.name ≠ name) → Win.goesTo env penv c pc errno name fuel = .ok (.nowhere 2)) := by
  have hh := c70_has_pipe penv files h1 pc hpc name (by omega)
  obtain ⟨o1, -, o3⟩ := c70_open env l hsh hu c hc errno fuel hf
  refine ⟨fun hm => ?_, fun hm a path ha he hp => ?_, fun hm hno => ?_⟩
  · rw [Win.goesTo, if_pos (hh.2 hm)]
    rcases c70_pipe_owner penv name hn (Win.interfaceFile penv name).1 (Win.interfaceFile penv name).2 rfl with ⟨hr, -, -⟩ | ⟨e, hr, -⟩
    · rw [hr]; exact .inl rfl
    · rw [hr]; exact .inr ⟨e, rfl⟩
  · rw [Win.goesTo, if_neg (mt hh.1 hm), ← he, o1 a path ha hp, Obsd.okb]
    cases env.openPath path <;> rfl
  · rw [Win.goesTo, if_neg (mt hh.1 hm), o3 name hno, Obsd.okb]

/-! ### Defects -/

theorem interfaceHandle_first (env : Win.SetupEnv) (errno : Nat) (name : CStr) (fuel : Nat) : Win.interfaceHandle env {} errno name fuel =
    if ¬ env.classDevs then .ok (.error errno)
    else (Win.findLoop env name fuel 0).bind fun
      | none => .ok (.error 2)
      | some path => if env.openPath path then .ok (.ok path) else .ok (.error 13) := rfl


/-- C70 (a defect). An adapter whose name has 127 characters, as many as the driver allows: `L'0'` (not `L'\0'`) overwrites the NUL, and listing as well as opening any adapter from it on reads
beyond the array. -/
theorem c70_counterexample_name127 (env : Win.SetupEnv) (d : Win.Dev) (u : List UInt16) (hd : d.name = some u) (hu : u.length = 127) (h0 : (0 : UInt16) ∉ u) (h1 : env.classDevs = true)
    (h2 : env.enum 0 = .dev d) (heap : Heap) (fuel errno : Nat) (name : CStr) :
    Win.kernelList heap env (fuel + 1) {} {} = .ub ∧ Win.interfaceHandle env {} errno name (fuel + 1) = .ub := by
  have harr : Win.nameArray d = some (u ++ [48]) := by
    rw [Win.nameArray, hd, Option.bind_some, if_pos (by omega), hu]
    congr 2
    rw [List.append_assoc, List.append_assoc, List.take_append, List.take_of_length_le (by omega), hu]
    simp
  have hub : Win.devName env d = .ub := by
    rw [Win.devName, harr]
    dsimp only
    rw [if_neg, if_pos (by simp [h0])]
    cases u with
    | nil => cases hu
    | cons x u =>
      simp only [List.cons_append, List.head?_cons, Option.some.injEq]
      intro e
      exact h0 (by simp [e])
  constructor
  · rw [Win.kernelList, if_neg (by simp [h1]), Win.listLoop, h2]
    dsimp only
    rw [hub]
  · rw [interfaceHandle_first, if_neg (by simp [h1]), Win.findLoop, h2]
    dsimp only
    rw [hub]

/-- C70 (a defect). The identifier of an adapter could not be read while listing (no memory): afterwards its name stands for any network device at all, the first one the system lists. -/
theorem c70_counterexample_any_adapter :
    ∃ (env : Win.SetupEnv) (sl : StrList) (c : Win.Cache), Win.kernelList ⟨fun _ => none, fun _ _ => 0⟩ env 5 {} {} = .ok (0, sl, c) ∧
      Win.interfaceHandle env c 0 b!"wg0" 5 = .ok (.ok [101]) ∧ env.ifaces none = some [101] ∧ env.ifaces (some [7]) = some [119] ∧
      Win.interfaceHandle { env with enum := fun | 0 => .dev ⟨some [119, 103, 48], [], true, some 10, true, .id [7]⟩ | _ => .noMore } {} 0 b!"wg0" 5 = .ok (.ok [119]) := by
  refine ⟨⟨true, true, fun | 0 => .dev ⟨some [119, 103, 48], [], true, some 10, true, .noValue⟩ | _ => .noMore, fun u => some (u.map fun x => UInt8.ofNat x.toNat),
    fun | none => some [101] | some _ => some [119], fun _ => true⟩, _, _, rfl, ?_⟩
  decide +kernel

/-- C70 (a defect). The devices cannot be enumerated at all when an adapter is to be opened: `errno` is not set, and if it was 0, setting a configuration and getting one both "succeed" — without
having done anything, or with no device. -/
theorem c70_counterexample_silent (env : Win.SetupEnv) (penv : Win.PipeEnv) (files : List CStr) (h1 : penv.files = some files) (name : CStr) (hn : name.length ≤ 209)
    (h2 : name ∉ pipeNames files) (h3 : env.classDevs = false) (fuel : Nat) :
    Win.goesTo env penv {} {} 0 name fuel = .ok (.nowhere 0) ∧
    (∀ (d : Device) calloc ioctl, Win.kernelSet ⟨some 0, calloc, ioctl⟩ d = .ok ⟨0, none, false, false⟩) ∧
    (∀ ioctl heap, Win.kernelGet ⟨some 0, ioctl, heap⟩ name fuel = .ok ⟨0, none, false, false⟩) := by
  have hh := c70_has_pipe penv files h1 {} (fun h => by cases h) name (by omega)
  refine ⟨?_, fun _ _ _ => rfl, fun _ _ => rfl⟩
  rw [Win.goesTo, if_neg (mt hh.1 h2), interfaceHandle_first, if_pos (by simp [h3]), Obsd.okb]

/-- C70 (a defect). An error of the enumeration other than its end is skipped: if it persists, the program never ends. -/
theorem c70_counterexample_endless (env : Win.SetupEnv) (h1 : env.classDevs = true) (h2 : ∀ i, env.enum i = .failed) (heap : Heap) (errno : Nat) (name : CStr) (fuel : Nat) :
    Win.kernelList heap env fuel {} {} = .running ∧ Win.interfaceHandle env {} errno name fuel = .running := by
  have e1 : ∀ fuel i sl t, Win.listLoop heap env fuel i sl t = .running := by
    intro fuel
    induction fuel with
    | zero => intros; rfl
    | succ f ih => intro i sl t; rw [Win.listLoop, h2]; exact ih _ _ _
  have e2 : ∀ fuel i, Win.findLoop env name fuel i = .running := by
    intro fuel
    induction fuel with
    | zero => intros; rfl
    | succ f ih => intro i; rw [Win.findLoop, h2]; exact ih _
  constructor
  · rw [Win.kernelList, if_neg (by simp [h1]), e1]
  · rw [interfaceHandle_first, if_neg (by simp [h1]), e2]

/-- C70 (a defect). Without memory for the list, running adapters are missing from it, and the code is 0. -/
theorem c70_counterexample_list_incomplete :
    ∃ (heap : Heap) (env : Win.SetupEnv) (l : List (Option Adapter)) (c : Win.Cache), Win.Shows env l ∧ runningNames l = [b!"wg0"] ∧
      Win.kernelList heap env 5 {} {} = .ok (0, { reallocs := 1 }, c) := by
  refine ⟨⟨fun _ => some 12, fun _ _ => 0⟩, ⟨true, true, fun | 0 => .dev ⟨some [119, 103, 48], [], true, some 10, true, .id [7]⟩ | _ => .noMore,
    fun u => some (u.map fun x => UInt8.ofNat x.toNat), fun _ => some [119], fun _ => true⟩, [some ⟨b!"wg0", [7], true⟩], _, ⟨rfl, rfl, ?_⟩, rfl, rfl⟩
  intro i h
  match i, h with
  | 0, _ => exact ⟨_, rfl, ⟨⟨[119, 103, 48], rfl, by decide, by decide, by decide, by decide⟩, by unfold IsName; decide, rfl, rfl, rfl, by
      constructor
      · intro; rfl
      · intro; exact ⟨10, rfl, by decide, by decide⟩⟩⟩

/-- C70 (a defect). If the pipes cannot be listed, `-EIO` becomes true: every name counts as one of a userspace implementation, and no adapter of the driver can be reached. -/
theorem c70_counterexample_pipes_unlistable (env : Win.SetupEnv) (penv : Win.PipeEnv) (h : penv.files = none) (c : Win.Cache) (errno fuel : Nat) (name : CStr) :
    ∀ g, Win.goesTo env penv c {} errno name fuel = .ok g → ∀ path, g ≠ .driver path := by
  intro g hg path e
  subst e
  rw [Win.goesTo, if_pos (by rw [Win.hasInterface, if_neg (by simp), h])] at hg
  cases hr : (Win.interfaceFile penv name).1 with
  | ok p => rw [hr] at hg; cases hg
  | error e => rw [hr] at hg; cases hg

/-! ### Concrete cases -/

/-- Two adapters, the second stopped, with a failed step of the enumeration between them. -/
def twoAdapters : List (Option Adapter) := [some ⟨b!"wg0", [7], true⟩, none, some ⟨b!"office", [8, 9], false⟩]

def twoEnum : Nat → Win.EnumRes
  | 0 => .dev ⟨some [119, 103, 48], [5], true, some 26, true, .id [7]⟩
  | 1 => .failed
  | 2 => .dev ⟨some [111, 102, 102, 105, 99, 101], [], true, some 2, true, .id [8, 9]⟩
  | _ => .noMore

def twoEnv : Win.SetupEnv := ⟨true, true, twoEnum, fun u => some (u.map fun x => UInt8.ofNat x.toNat), fun i => i.map (1 :: ·), fun p => p = [1, 7]⟩

theorem twoEnv_shows : Win.Shows twoEnv twoAdapters := by
  refine ⟨rfl, rfl, fun i h => ?_⟩
  match i, h with
  | 0, _ => exact ⟨_, rfl, ⟨⟨[119, 103, 48], rfl, by decide, by decide, by decide, by decide⟩, by unfold IsName; decide, rfl, rfl, rfl, by
      constructor
      · intro; rfl
      · intro; exact ⟨26, rfl, by decide, by decide⟩⟩⟩
  | 1, _ => exact .inl rfl
  | 2, _ => exact ⟨_, rfl, ⟨⟨[111, 102, 102, 105, 99, 101], rfl, by decide, by decide, by decide, by decide⟩, by unfold IsName; decide, rfl, rfl, rfl, by
      constructor
      · rintro ⟨s, h1, -, h3⟩; cases h1; revert h3; decide
      · intro h; cases h⟩⟩

/-- Three pipes, one of them of a userspace implementation. -/
def twoPipes : Win.PipeEnv :=
  ⟨true, some [b!"lsass", b!"ProtectedPrefix\\Administrators\\WireGuard\\user0", b!"ProtectedPrefix\\Administrators\\other"], fun _ => none, true, fun _ => true, fun _ => some true, none, none⟩

example : ∃ sl c pc, Win.listDevices ⟨fun _ => none, fun _ _ => 0⟩ twoEnv twoPipes 5 {} {} = .ok (0, sl, c, pc) ∧ Content sl [b!"wg0", b!"user0"] ∧
    Win.Fresh twoEnv twoAdapters c ∧ Win.PipeFresh twoPipes (twoPipes.files.getD []) pc :=
  c70_list_devices ⟨fun _ => none, fun _ _ => 0⟩ (fun _ => rfl) twoEnv twoAdapters twoEnv_shows 5 (by decide) twoPipes _ rfl (fun _ => rfl) (by decide +kernel)

example : Win.goesTo twoEnv twoPipes {} {} 0 b!"wg0" 5 = .ok (.driver [1, 7]) ∧ Win.goesTo twoEnv twoPipes {} {} 0 b!"office" 5 = .ok (.nowhere 13) ∧
    Win.goesTo twoEnv twoPipes {} {} 0 b!"user0" 5 = .ok (.pipe (b!"\\\\.\\pipe\\" ++ pipeFile b!"user0")) ∧ Win.goesTo twoEnv twoPipes {} {} 0 b!"none" 5 = .ok (.nowhere 2) := by
  decide +kernel

example : UniqueNames twoAdapters := by unfold UniqueNames; decide

/-- A pipe of another owner is not used. -/
example : Win.interfaceFile { twoPipes with owner := fun _ => some false } b!"user0" =
    (.error 13, [.opened (b!"\\\\.\\pipe\\" ++ pipeFile b!"user0"), .closed (b!"\\\\.\\pipe\\" ++ pipeFile b!"user0")]) := by
  decide +kernel

/-- Two names in the same bucket. -/
example : Win.bucketOf true b!"wg9" = Win.bucketOf true b!"wg180" ∧
    Win.findEntry true (Win.findOrInsert true (Win.findOrInsert true (fun _ => []) b!"wg9" true 3).2 b!"wg180" true 4).2 b!"wg9" = some 3 := by
  decide +kernel

end WG
