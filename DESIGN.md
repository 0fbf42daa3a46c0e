# Formal model of wireguard-tools in Lean 4

Layout (all under `lean/Verif/`):

* `Base/`   byte strings, C integer helpers.
* `Model/`  the model of the code, function by function; each definition cites file and lines in `/repo`.
* `Spec/`   small specifications, independent of the model (RFC 4648, RFC 7748, the documented kernel/userspace interface
            semantics, file and output grammars, what `ip rule`, `nft`, `iptables-restore` and a crashing file system do).
* `Proof/`  lemmas.
* `Props/`  the property theorems (`cNN_…`), one file per area, with a non-vacuity `example` beside each.

Outside Lean: `properties.jsonl` (written by `tools/props.py`), `MANIFEST.json` (written by `tools/manifest.py`, which collects the
theorems `cNN_…`; notes in `tools/status.py`), `tools/mutate.py` and `tools/mutations/` (the wrong programs), `seeded/LOG.jsonl`
(their outcomes), `tools/fiat32.py` (transliterates the straight-line arithmetic of curve25519-fiat32.h to `Model/Curve32Gen.lean`).

## Trusted base

* Lean 4.33.0's kernel. Axioms: only `propext`, `Classical.choice`, `Quot.sound` (those of Lean's library); no axiom is added, no
  proof is left open, nothing rests on compiled code (`decide +kernel` is evaluation by the kernel). Mathlib is used for lists,
  `ZMod`, field arithmetic, primality certificates and tactics.
* That the definitions in `Model/` say what the C and bash texts say. They were written by hand next to the source (except
  `Curve32Gen`, written by a script); each cites its lines.
* That the definitions in `Spec/` say what the English properties say.
* The semantics of what is outside `/repo` as far as it is modelled: C integers, bash 5, libc functions (below), kernel interfaces.

## What is modelled

| source | model | not modelled |
|---|---|---|
| `encoding.c`, `ctype.h` | `Encoding`, `Ctype`: bit for bit | – |
| `config.c` | `Config` (meaning), `Heap` (memory) | messages other than the host-part warning; `getline` buffer failure |
| `containers.h` | `Types` (lists), `Heap` (`free_wgdevice`, nodes) | – |
| `set.c`, `setconf.c` | `Setconf`, `Heap` | stderr text |
| `show.c`, `showconf.c`, `terminal.c` | `Show`, `Terminal` | stderr text; `time()` constant during a run |
| `genkey.c`, `pubkey.c` | `Keys` | Windows branch; failures of writing to stdout |
| `curve25519.c/.h`, `-hacl64.h`, `-fiat32.h` | `Curve64`, `Curve32`, `Curve32Gen` | erasing of temporaries; timing |
| `ipc.c`, `ipc-uapi-unix.h` | `IpcList` | Windows, FreeBSD, OpenBSD variants unless listed below |
| `ipc-uapi.h` | `Uapi` | `calloc` failure |
| `ipc-linux.h`, `netlink.h` | `IpcLinux`, `Netlink`, `IpcList`, `NetlinkOpen` | table entries of the controller's reply other than the family id; `free` is taken to preserve `errno` |
| `ipc-openbsd.h`, `uapi/openbsd/net/if_wg.h` | `IpcOpenbsd` | 32-bit and big endian layouts; failing `calloc` of the device, peers, allowed IPs |
| `ipc-freebsd.h` | `IpcFreebsd` (listing: same text as OpenBSD, `IpcOpenbsd`) | the nv(9) library (lists of name-value pairs; packing lossless); failing `calloc` and releases in `kernel_get_device` |
| `contrib/embeddable-wg-library/wireguard.c`:1248-1258, 1493-1755 | `EmbCurve`, `EmbKeys` | erasing of temporaries; `>>` of negative numbers is arithmetic; built without NDEBUG |
| `contrib/embeddable-wg-library/wireguard.c`:82-1246, 1260-1476, `wireguard.h`:84 | `EmbIpc` (and, where the text is the same, `Netlink`, `IpcLinux`, `IpcList`, `NetlinkOpen`) | as there; allocation of peers and allowed IPs while reading; `wg_free_device` is one event |
| `ipc-windows.h`:215-450, `uapi/windows/wireguard.h` | `IpcWindows` | failing `calloc` of the device, peers, allowed IPs while reading |
| `ipc-windows.h`:20-213, `ipc-uapi-windows.h`, `wincompat/include/hashtable.h` | `WinFind` | conversion UTF-16 to UTF-8 (a parameter); wrap-around of the index of devices |
| `wincompat/libc.c` | `WinLibc` | translation of line ends by the C library |
| `contrib/highlighter/highlighter.c`, `highlight.c` | `Highlight` | `MOBILE_WGQUICK_SUBSET`; `gui/`, `fuzz.c` |
| `contrib/keygen-html/wireguard.js` | `JsCurve` | `keygen.html`; -0 and 0 are not distinguished |
| `contrib/json/wg-json` | `WgJson` | globbing of allowed IPs; octal numbers; environment variables named like the script's |
| `contrib/reresolve-dns/reresolve-dns.sh` | `Reresolve` | regular expressions of keys that are no base64 texts (a parameter) |
| `contrib/nat-hole-punching/*.c` | `PunchServer`, `PunchClient` | what is printed; the set-up of the server's socket |
| `contrib/ncat-client-server/server.sh` (15-18), `client.sh` (11-12) | `DemoServer` | the set-up of the interface; a failing `wg show` |
| `contrib/ncat-client-server/client.sh` | `DemoScript` | 19-20: the words of the route |
| `contrib/ncat-client-server/client-quick.sh` | `DemoClient` | sudo; a failed line 23 |
| `contrib/extract-handshakes/extract-handshakes.sh` | `ExtractHandshakes` | reading `OFFSETS`; `turn_off` and the traps |
| `completion/wg.bash-completion` | `Completion` | `compgen -f`; expansion by `compgen -W` is a parameter |
| `contrib/extract-keys/extract-keys.c` | `ExtractKeys` | messages; changes of the memory meanwhile |
| `systemd/wg-quick@.service` | `Systemd` | dependencies, restarting, time limits of systemd |
| `completion/wg-quick.bash-completion` | `CompletionQuick` | `compgen -f`, `compgen -d` and the contents of directories are parameters |
| `contrib/dns-hatchet/hatchet.bash` | `Hatchet` | mount namespaces; apply.sh |
| `contrib/sticky-sockets/sticky-sockets.c` | `Sticky` | big endian and 32-bit layouts |
| `wg.c` | `Main` | – |
| `wg-quick/linux.bash` | `QuickParse`, `QuickRun`, `QuickMain` | globbing of words, world-accessible warning, messages, signals while a trap runs, failures of builtins |
| `wg-quick/{freebsd,openbsd,darwin}.bash` | `BsdSh`, `Bsd`, `BsdMain` | the warning about permissions, the check of the version of bash (macOS), `launchctl` (a Boolean); output only shown; a signal in a reading loop counts before or after the output |
| `wg-quick/android.c` | `AndroidParse`, `Android` | messages, warning about permissions, failing allocations; the output of a command read through a pipe is fixed when it is started; marshalling for the resolver service is one step; `execvp` does not fail |
| libc | `Libc` (C locale: strtoul, strtoull, isspace, …), `Inet` (glibc inet_pton/ntop, numeric getaddrinfo/getnameinfo) | other locales |

Not modelled at all: the rest of `wincompat/`, the rest of `contrib/`,
`systemd/wg-quick.target`, `fuzz/`.

## Modelling conventions

* C strings are `List UInt8` without the terminator (`cstr` cuts a raw buffer at its first NUL).
* `int` arithmetic of the bit tricks is `BitVec 32` with arithmetic right shift (GCC/Clang); `char` may be signed or unsigned (a
  parameter where it matters).
* `unsigned long` width is a parameter (`ulongMax`) of `strtoul`.
* Linked lists are Lean lists, except in the heap model (C49), where nodes have addresses.
* Flag words are records of booleans.
* libc / OS answers (inet_pton, inet_ntop, getaddrinfo, getnameinfo, fopen/fread, random source, kernel replies) are parameters,
  quantified over in the theorems; where a law is needed (e.g. pton inverts ntop) it is proved for a concrete model of the libc
  function.
* Undefined behaviour and process exit are distinct outcomes. Memory accesses of the netlink reader and of terminal.c are checked.
* `qsort` is any sorted permutation. Retry loops are observed for a time that is a parameter (`patience`).
* wg-quick is a program over an arbitrary environment: a `World` maps the history so far and the next call to a reply (status,
  output, signal), so a theorem for all worlds is one for all behaviours of the system, other programs, and points of failure.
  Which bash facts are built in is said at the top of `Model/QuickRun.lean`.
* Crashes (C52): what a file contains after a crash is arbitrary from the time it is opened for writing until it was synced; rename
  is atomic.
* Kernel state shared with others (C60, C61): see `Spec/QuickKernel.lean`; other programs do not change it during the run.

## Properties: what is modelled and how it is proved

| id | what is modelled | how it is proved |
|----|------------------|------------------|
| C01-C04 | encoding.c bit for bit | per-character tables by kernel `decide` over all 256 bytes, lifted by bit lemmas to all keys/strings |
| C05 | ctype.h | kernel `decide` over the whole (finite) domain |
| C06-C07 | parse_fwmark / parse_persistent_keepalive over a model of strtoul | induction over digit strings |
| C08-C09 | parse_allowedips, validate_netmask | induction over the entry list; bit lemmas |
| C10-C15 | config.c parser as a fold over lines / argv | case analysis, induction over lines / argv; refinement to a grammar of files and commands |
| C16 | parse_keyfile over file contents | list reasoning |
| C17-C18 | parse_endpoint split and retry loop over an oracle stream | induction |
| C19-C22 | sync_conf with qsort as any sorted permutation; driver state machine spec | induction over the sorted array; refinement to the spec |
| C23-C28 | ipc-uapi.h writer and readers over byte streams | writer/reader round trip by induction; counterexamples by evaluation |
| C29-C32, C53 | ipc-linux.h + netlink.h, bytes and attribute trees | invariants over the builder loop; refinement to message semantics; checked memory accesses |
| C33-C38 | show.c, showconf.c, terminal.c | noninterference, exact output grammars, round trip through the config parser |
| C39-C43 | genkey.c, pubkey.c, curve25519*.h | limb bounds and congruences mod 2^255-19, ladder refinement to RFC 7748, primality of the modulus |
| C44-C48 | ipc.c, wg.c, ipc-uapi-unix.h, show_main | invariants, case analysis |
| C49 | heap model of the configuration commands, every allocation may fail | separation-style invariant on addresses |
| C50, C58 | wg-quick/linux.bash up/down as programs over an arbitrary environment | program logic over histories (`Proof/QuickLogic`), induction over loops |
| C51, C54, C55, C59 | wg-quick's file reader and save | refinement to line/key/value specs; composition with the config parser of `wg` |
| C52 | save_config with crash points | invariant over prefixes of histories |
| C56, C57 | set_mtu_up, add_route, add_default | exact shape of histories |
| C60, C61 | del_if, remove_firewall against routing rules, nftables, iptables | simulation of histories on the shared kernel state |
| C62 | Model/Ipc: ipc_set_device and ipc_get_device down to the bytes, under set, setconf, addconf, syncconf, showconf | composition of the theorems on parser, dispatch and protocols; state of the interface in Spec/EndToEnd |
| C63 | Model/NetlinkOpen: opening, closing, the controller's reply, whole kernel operations with every allocation and system call | case analysis of events; the reader of C32 run with the controller's callback; equality with the operations used in C29-C32, C53, C62 |
| C64 | Model/QuickMain: argument handling and auto_su around the operations of C50-C61 | case analysis; composition of C50, C51, C54, C55 and C62 |
| C65 | Model/IpcOpenbsd: the three kernel operations on OpenBSD, memory byte by byte with checked accesses | structures as blocks of memory, stores into the middle of memory, an independent reader by offsets; induction over peers, allowed IPs and calls |
| C66 | Model/IpcFreebsd: set and get on FreeBSD with name-value lists; every allocation and release of set | lookup by name in lists of unique names; independent reader; permutation invariant on the held allocations, induction over peers and allowed IPs |
| C67 | Model/EmbCurve, Model/EmbKeys: the key functions of the embeddable library (int64 limbs with overflow, aliasing registers, uninitialized arrays arbitrary) | limb bounds and congruences mod 2^255-19, the loops carry/cswap/multmod/invert by induction, refinement of the ladder to RFC 7748; base64 by refinement to C01/C02 |
| C68 | Model/EmbIpc: interface functions of the embeddable library, on top of the netlink model | simulation between the library's reading callbacks and wg's (same up to error numbers), induction on attempts; the attribute encoding is read back by Spec/EmbIpc |
| C69 | Model/IpcWindows: kernel_set_device and kernel_get_device on Windows, buffers byte by byte with checked accesses | structures as blocks of memory and an independent reader by offsets; induction over peers, allowed IPs and calls |
| C70 | Model/WinFind: enumeration of adapters and pipes, the hash table, the choice of ipc.c | the table refines a map; induction over the enumerated devices and files |
| C71 | Model/WinLibc: getdelim and strsep on memory with checked accesses | loop invariant on the buffer; refinement to `getlines` and `strsepAll`, which the models of the readers use |
| C72 | Model/Highlight: highlight_config and the program, texts as offsets into the buffer with checked look-ahead | invariant: the spans so far tile the text before the current part |
| C73 | the same; Spec/Highlight: independent line-wise description, values by IsDecimal, base64, inet_pton | agreement of each validator with its specification; induction over the bytes of a line, then over lines |
| C74 | the highlighter's parts (C73) against the file syntax of `wg` (Spec/ConfigFile, C14) | each line without errors is blank, a header, a setting of wg-quick or a line of its section; induction over lines |
| C75 | Model/Bsd: `up` with its traps; Spec/BsdUp, BsdDown, BsdUpEnd: what is done step by step, and undone | each step's runs that go on are exactly the specified events; each run that stops is classified by where; the trap's runs likewise |
| C76 | Model/Bsd: `up` and the route monitor on FreeBSD, OpenBSD, macOS over an arbitrary environment; Spec/BsdRoutes: state of one route after a history | invariant: variables agree with what was last learnt and with the route's state; relations closed under sequencing; induction over events |
| C77 | the same, with traps | the invariant is kept at every point where the run can stop; the trap deletes what is recorded |
| C78 | Model/Bsd; Spec/BsdNets: state of one network's route after the history | every step of `up` (Spec/BsdUp) but one leaves it alone; induction over the allowed IPs for that one |
| C79 | Model/Bsd; Spec/BsdUp: MtuSet | which commands of `up` and of the monitor can change the MTU; induction over events |
| C80 | Model/Bsd; Spec/BsdSave: ends of `save`; Spec/QuickRun: Disk | inversion of every step (Proof/BsdSave, BsdDownEnd, BsdDownTop), then what each event does to the file (Proof/BsdCrash) |
| C81 | Model/Bsd; Spec/BsdSave: ends of `down` | as C80; commands of the removal leave the file alone |
| C82 | Model/Bsd; Spec/BsdService: the settings of a service as a function of the history, and the answers of `networksetup` | invariant: what the script remembers of the service is its former setting, or nothing is remembered and it is unchanged; weaker after a signal, enough for the trap (Proof/BsdService, BsdServiceRun, BsdServiceEnd) |
| C83 | Model/BsdMain over Model/Bsd; Spec/BsdMain: search path, what file is read | case analysis of the arguments; parse_options equals a relation on files (parseOptions_iff); C51, C54, C62, C75 (Proof/BsdMain) |
| C84 | Model/AndroidParse; Spec/Android: lines that are settings, search path, names from paths | loop invariant over the lines; the regular expressions as predicates on bytes (Proof/AndroidParse) |
| C85 | Model/Android: the whole of up and down over an environment that answers every command; Spec/AndroidRun: package lists, lists of applications, arguments of ndc | the sorted list of uids splits the range into gaps; batches of eighteen; which other commands of up do not add users (Proof/AndroidUsers, Props/AndroidUsers) |
| C86 | Model/Android; Spec/AndroidRun: own rules, network shown, removal | a logic of successful runs (Did) composed over del_if; the expressions as predicates on lines (Proof/AndroidDel) |
| C87 | Model/Android; Spec/AndroidUp: BroughtUp and its parts; Spec/AndroidRun: removal | the parts of a successful run composed (Proof/AndroidParts, Proof/AndroidDns); logics of growing histories and of exits only after trouble for the failing run |
| C88 | Model/Android; Spec/Shell: how the shell splits a line | closure of clean lines under appending; the logic Safe over all parts of up and down |
| C89 | Model/Android, Model/AndroidParse: main | composition of C84, C86 and C87 |
| C90 | Model/JsCurve: wireguard.js over integers with a check that every double is exact | Proof/JsField, JsPack, JsLadder as for C67, with bounds for 53 and 32 bits; base64 by cases of the key |
| C91 | Model/WgJson: the bash script over bytes, with `read`, splitting and `$(( ))`; Spec/Json: JSON texts and the value of a device list | the printed text is written as nested lists of members (Proof/WgJsonText), which is the output by induction over the rows and JSON by the grammar |
| C92 | Model/Reresolve: the bash script with the commands as an oracle over histories; Spec/Reresolve: sections, listing, allowed traces | the search finds exactly the line of the key (first separator of each suffix of the listing), the loop is a run over `peersIn` by induction over lines, traces by induction over peers |
| C93 | Model/PunchServer: table, counter, one turn of the loop; Spec/Punch: last address heard, queue of 65536 places | the table, turned by the counter, is the queue (invariant: no key twice, or the rest still zero); as long as there is room the queue holds the last address of every key |
| C94 | Model/PunchClient: calls as an oracle over histories, the BPF program; Spec/PunchClient: the BPF machine, packets, commands, the line to the server | the filter by cases on its loads; grammar of conversations by induction over peers and rounds, splitting traces; with C93 the content of each answer |
| C95 | Model/DemoServer: the text of the listing, the search in it, what the kernel does with allowed-ips; Spec/Demo: fairness, reachable states, interleavings | an address is found in the listing exactly if a peer has it (separators, number of dots); invariant by induction over histories; counting for a free address |
| C96 | Model/ExtractHandshakes: the probe, the regular expression, unpack_u64, printf; Spec/ExtractHandshakes: memory, fetch arguments of kprobes, trace lines, longest matches | the hexadecimal numeral, made even, is the bytes without leading zeros (induction); matches from the end of the line: a group is followed by no and preceded by a non-digit |
| C97 | Model/Completion: the completion function; Spec/Completion: words of bash, command lines, names that can be next | both loops step over the words of a value because a value that begins and ends unbroken is an odd number of words (induction); acceptance by the lemma that reading a prefix and then the rest is reading the whole |
| C98 | Model/ExtractKeys: the scan of the lines, the reads, the walk; Spec/ExtractKeys: what is stored where, rings of peers, sessions | induction on the ring and on the lines; numerals padded to eight digits |
| C99 | Model/Systemd: ExecReload as the composition of quickMain and setconfMain | composition of C51, C54, C64 with C19-C22 and C62 |
| C100 | Model/CompletionQuick: the patterns, the words; what is offered as a set, and its relation to the file the script reads | membership; reduction to the words of a plain text; relation with C64 and C82 |
| C101 | Model/Hatchet: set_dns and unset_dns as programs over any environment; Spec/Hatchet: the mounts over /etc/resolv.conf and the records of resolvconf, and what commands do to them | induction on the interfaces; cases on the commands that fail |
| C102 | Model/Sticky: the functions on the bytes of the unions and messages; Spec/Sticky: what a peer is remembered as, and what is sent, for one operation | refinement by induction on the history; main by cases |
| C103 | Model/DemoClient: the fields, the here-document, the order of the commands; the specifications of wg-quick files, wg files and the demo server | the lines with arbitrary fields; inversion of the sections; composition with c95 |
| C104 | Model/DemoScript: the commands with their arguments and the file descriptor of the key; the specifications of `wg set` arguments and the demo server | the list of commands by induction; inversion of the argument list; composition with c95 |

No property of the list is considered inexpressible.

## Findings

Behaviour that contradicts what one would expect, each proved as a counterexample or exact characterisation:
c01 (negative left shift), c06 (32-bit long), c11 (read error taken as end of file), c16 (empty pipe vs. empty file), c20 (duplicate
runtime keys), c21 (syncconf does not reset unmentioned settings), c23/c38 (getnameinfo failure drops the endpoint), c26 (saturation),
c27 ("/256" becomes "/0"), c28 (null pointer for a positive errno), c31 (null pointer in coalesce_peers), c32 (swallowed errors, over-reads),
c46 (truncated socket path), c47 (name cut to 15 bytes), c50 (undo failure, signal during resolvconf, race deleting a foreign
interface with exit 0), c51 (NUL bytes), c53 (ignored error, over-read), c55 (bare file name), c59 (`&`, empty interface section, lost
search domains), c60 (prefix of table numbers, shared suppress rule, left-behind rules), c61 (unreported failures), c63 (an acknowledgement alone), c65 (IPv6 endpoint, long names), c66 (positive errors, short addresses, long
names, a leak), c67 (key overwritten), c68 (interrupted dump, other answers, long names), c69 (mark dropped, leak), c70 (names of 127
characters, any adapter, silent success, endless enumeration, incomplete list, unlistable pipes), c71 (read errors, memory, buffers of one byte),
c72 (NULL read, lost spans), c74 (empty items, peers without key, CRLF), c75 (foreign interface taken over and leftover
directory on FreeBSD, signals that leave interface or DNS, status 0 after an interruption, DNS ignored on OpenBSD), c76 (monitor process dies: routes go while the interface stays),
c77 (the user's own route to an endpoint; IPv6 endpoint under an IPv4 default route; signal while listing; no temporary directory),
c78 (interface name as regular expression), c79 (MTU of the default route never used on FreeBSD and OpenBSD),
c80 (saving loses prefix lengths and search domains; scoped addresses on macOS), c81 (PostDown hooks skipped when resolvconf fails; status 0 after a signal),
c82_counterexample_away (a service that is not listed for a while keeps the DNS servers of the tunnel),
c83_counterexample_temp_left (FreeBSD without root rights leaves a temporary directory), c83_counterexample_bare (macOS refuses a file given by its bare name), c83_counterexample_root (macOS reads another file than the one in the root directory),
c84_counterexample_long_name (too long a name is cut), c84_counterexample_long_line (a long line hides the rest of the file, and up crashes on NULL), c84_counterexample_comment (comments in values and behind section headers),
c85_counterexample_leak (names behind the list), c85_counterexample_overflow (array of uids), c85_counterexample_empty, c85_counterexample_last (uid 99999),
c86_counterexample_longer (wrong network destroyed), c86_counterexample_dot (rules of others deleted), c86_counterexample_plus (own rules stay), c86_counterexample_refused (cannot be taken down),
c87_counterexample_endpoints (MTUs of the routes to endpoints ignored), c87_counterexample_signal (nothing undone), c87_counterexample_long_line (crash after the interface was made), c87_counterexample_plus (nothing undone),
c88_counterexample_domain (a search domain is run as a command),
c91_counterexample_name (a quote in an interface name gives invalid JSON), c91_counterexample_failure (a failure of wg looks like no interfaces),
c92_counterexample_case (the handshake of a peer whose key differs only in case counts), c92_counterexample_stop (one name that cannot be resolved stops all later updates), c92_counterexample_long (too long a file name: another interface), c92_counterexample_header (`[ Peer ]`, which wg accepts, is ignored),
c93_counterexample_zero (the key of 32 zeros, never heard, is at 0.0.0.0 port 0), c93_counterexample_spoof (anybody can move any key), c93_counterexample_forgotten (65536 keys from one computer make the server forget all others),
c94_counterexample_repeated (a repeated datagram gives a peer the address of another), c94_counterexample_unknown (an interface that does not exist: NULL is read), c94_counterexample_many (65536 peers: a write beyond the table),
c95_counterexample_race (two clients are told 192.168.4.2, the first loses it), c95_counterexample_garbage (without a key one can make a full server drop its peers), c95_counterexample_again (connecting again changes the address), c95_counterexample_newest (on a full server a new client loses its address to the next one),
c96_counterexample_zero_byte (a key with a zero as 8th byte is shown wrong on little-endian machines),
c97_counterexample_value (a preshared-key file named peer), c97_counterexample_even (nothing is offered after allowed-ips ::/0), c97_counterexample_expansion (pressing TAB runs a command that is part of an interface name), c97_peer_value (no file names for preshared-key),
c98_counterexample_foreign (another socket ends the program), c98_counterexample_short (a short read ends with status 0 and no output), c98_counterexample_removed (a peer removed meanwhile is shown without end),
c99_counterexample_empty (if wg-quick refuses the file, the reload succeeds and removes the private key and all peers),
c100_counterexample_operations (save and strip are never offered), c100_counterexample_here (the offered wg0.conf of the current directory is not the file that is read), c100_counterexample_long, c100_counterexample_expansion (a command in the name of a file is run), c100_counterexample_equals,
c101_counterexample_order (taking down the first of two interfaces removes the servers of the second and leaves its own), c101_counterexample_installed,
c102_counterexample_family (an address of an unknown family is ignored, and the peer before is written to), c102_counterexample_control (without a control message the source of the peer before stays, or
is read from uninitialised memory), c102_counterexample_length (1024 bytes in answer to two), c102_counterexample_scope,
c103_counterexample_address (the server chooses any number of addresses with any prefix), c103_counterexample_empty (`OK` alone: success, and a file without address and public key),
c104_counterexample_lost (a server that answers nonsense makes the script remove an existing wg0 before it fails).
