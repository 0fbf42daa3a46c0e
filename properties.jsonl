{"id": "C01", "title": "Base64 key printing and parsing are exact inverses", "statement": "Printing any 32-byte key as base64 and reading the text back returns the same key; conversely every text the reader accepts is exactly the text that printing the resulting key produces. So a key has exactly one accepted spelling: wrong length, missing '=', any non-alphabet byte, and non-canonical trailing bits are all refused.", "quantifier": "all 2^256 keys and all byte strings of any length, with char signed or unsigned", "why_tests_cant": "2^256 keys and an infinite set of strings; the reader is branch-free bit arithmetic whose errors hide in single characters", "anchors": ["src/encoding.c: key_to_base64, key_from_base64, encode_base64, decode_base64"]}
{"id": "C02", "title": "Base64 key text is RFC 4648 base64", "statement": "The printed text of a key is 44 characters: the RFC 4648 base64 encoding (standard alphabet, one '=' pad) of its 32 bytes.", "quantifier": "all 32-byte keys", "why_tests_cant": "2^256 inputs", "anchors": ["src/encoding.c: key_to_base64, encode_base64"]}
{"id": "C03", "title": "Hex key printing and parsing agree", "statement": "The hex text of a key is its 64 lowercase hex digits; reading accepts exactly the strings that equal the hex text of some key up to letter case, and returns that key.", "quantifier": "all 32-byte keys and all byte strings", "why_tests_cant": "2^256 keys, infinite strings; branch-free arithmetic", "anchors": ["src/encoding.c: key_to_hex, key_from_hex"]}
{"id": "C04", "title": "Zero-key test is exact", "statement": "The zero test answers true exactly for the all-zero key.", "quantifier": "all 32-byte keys", "why_tests_cant": "2^256 inputs", "anchors": ["src/encoding.c: key_is_zero"]}
{"id": "C05", "title": "Locale-free character classes are exact", "statement": "The tool's own space/digit/letter tests answer true exactly for ASCII white space (9-13, 32), '0'-'9', and 'A'-'Z'/'a'-'z', for every byte whether char is signed or unsigned, and false for EOF.", "quantifier": "all bytes read as signed or unsigned char, and EOF", "why_tests_cant": "bit-trick arithmetic on promoted ints, platform-dependent char signedness", "anchors": ["src/ctype.h: char_is_space, char_is_digit, char_is_alpha"]}
{"id": "C06", "title": "FwMark values are parsed exactly", "statement": "A FwMark/fwmark value is accepted iff it is 'off' in any case, a decimal numeral, or '0x' followed by hex digits, with value at most 0xffffffff; the mark stored is that value ('off' is 0). Where unsigned long has 32 bits this fails: an oversized numeral is accepted as 0xffffffff.", "quantifier": "all byte strings; unsigned long of 64 and of 32 bits", "why_tests_cant": "infinite strings, saturation in strtoul", "anchors": ["src/config.c: parse_fwmark"]}
{"id": "C07", "title": "PersistentKeepalive values are parsed exactly", "statement": "A keepalive value is accepted iff it is 'off' in any case or a decimal numeral of value at most 65535, and that value is what is stored.", "quantifier": "all byte strings, any width of unsigned long of at least 32 bits", "why_tests_cant": "infinite strings", "anchors": ["src/config.c: parse_persistent_keepalive"]}
{"id": "C08", "title": "AllowedIPs lists are parsed exactly", "statement": "An AllowedIPs value is accepted iff it is empty or every comma-separated entry is an address the system's address parser accepts (IPv6 iff it contains ':'), optionally followed by '/' and a decimal prefix length no larger than 32 or 128; the entries appended to the peer are exactly those, in order, a missing prefix length meaning the full length, and the value always marks the peer's list for replacement.", "quantifier": "all byte strings and all existing lists", "why_tests_cant": "unbounded lists of entries", "anchors": ["src/config.c: parse_allowedips, parse_ip"]}
{"id": "C09", "title": "Host-part warning is exact", "statement": "The 'nonzero host part' warning is given for an allowed IP exactly when some address bit beyond the prefix length is set; it is never given for an entry written without a prefix length (where it would print a null string).", "quantifier": "all IPv4/IPv6 addresses and prefix lengths", "why_tests_cant": "2^135 inputs", "anchors": ["src/config.c: validate_netmask, parse_allowedips"]}
{"id": "C10", "title": "Configuration lines ignore white space, comments and key case", "statement": "The effect of a configuration line depends only on its characters before the first '#' with all white space removed; section names and key names may be written in any letter case; blank and comment-only lines have no effect.", "quantifier": "all lines and all parser states", "why_tests_cant": "infinite inputs", "anchors": ["src/config.c: config_read_line, process_line, get_value"]}
{"id": "C11", "title": "A configuration file is applied all or nothing", "statement": "If any line of a configuration file is not accepted, or any peer has no public key, the command exits nonzero and never contacts the interface; otherwise the whole file is sent in one set operation.", "quantifier": "all files, all line counts, every position of the bad line", "why_tests_cant": "the failing position and file are unbounded", "anchors": ["src/setconf.c: setconf_main", "src/config.c: config_read_line, config_read_finish"]}
{"id": "C12", "title": "Every peer sent to an interface carries an explicitly given public key", "statement": "Every peer in a successfully read configuration file or command line had a public key given for it, and peers appear in the order written.", "quantifier": "all files and command lines", "why_tests_cant": "unbounded numbers of peers", "anchors": ["src/config.c: config_read_finish, config_read_cmd"]}
{"id": "C13", "title": "setconf replaces, addconf adds", "statement": "A file read for setconf/syncconf always requests replacing the peers, and setting the private key, listen port and fwmark (to zero/none when the file omits them); a file read for addconf requests only what it mentions and never requests replacing the peer list.", "quantifier": "all files", "why_tests_cant": "infinite inputs", "anchors": ["src/config.c: config_read_init, process_line"]}
{"id": "C14", "title": "Repeated settings: the last one wins, lists accumulate", "statement": "Within an interface section the last accepted value of ListenPort, FwMark, PrivateKey wins, and within a peer section the last Endpoint, PublicKey, PresharedKey and PersistentKeepalive; several AllowedIPs lines of one peer append to one list.", "quantifier": "all sequences of settings", "why_tests_cant": "unbounded sequences", "anchors": ["src/config.c: process_line"]}
{"id": "C15", "title": "wg set argument grammar", "statement": "A 'wg set' argument list is accepted iff it is a sequence of device settings (listen-port, fwmark, private-key with one argument each) followed by peer groups (peer KEY then any of remove, endpoint, allowed-ips, persistent-keepalive, preshared-key); a setting not mentioned is not marked as set.", "quantifier": "all argument lists", "why_tests_cant": "unbounded argument lists", "anchors": ["src/config.c: config_read_cmd"]}
{"id": "C16", "title": "Key files", "statement": "A key file gives key k iff its content is exactly the base64 text of k followed by white space only; an empty seekable file gives the zero key (removal); every other file is refused.", "quantifier": "all file contents", "why_tests_cant": "infinite inputs", "anchors": ["src/config.c: parse_keyfile"]}
{"id": "C17", "title": "Endpoint resolution retries", "statement": "Name resolution is attempted again exactly after transient errors: at most N+1 attempts with WG_ENDPOINT_RESOLUTION_RETRIES=N (15 by default), unbounded for 'infinity', never after a permanent error; the waits start at 1 second, grow by a fifth, never exceed 20 seconds and never overflow.", "quantifier": "all sequences of resolver answers and all N", "why_tests_cant": "unbounded histories of the network", "anchors": ["src/config.c: parse_endpoint, parse_dns_retries"]}
{"id": "C18", "title": "Endpoint splitting", "statement": "An endpoint value is split as '[host]:port' when it starts with '[' and otherwise at its last colon; it is refused iff no such split with a nonempty port exists; splitting inverts the '[host]:port'/'host:port' printing used by show, showconf and the set protocol.", "quantifier": "all byte strings", "why_tests_cant": "infinite inputs", "anchors": ["src/config.c: parse_endpoint", "src/ipc-uapi.h: userspace_get_device", "src/showconf.c"]}
{"id": "C19", "title": "syncconf ends with exactly the file's peers", "statement": "After a syncconf is applied, the set of peers of the interface is exactly the set of peers in the file, whatever the interface held before.", "quantifier": "all files and all prior interface states", "why_tests_cant": "unbounded peer sets and histories", "anchors": ["src/setconf.c: sync_conf, pubkey_cmp"]}
{"id": "C20", "title": "syncconf does not disturb peers that stay", "statement": "syncconf never removes or resets a peer that is both in the file and on the interface (no removal and no replace-all is sent when both are nonempty), and requests removal of exactly the peers that are on the interface but not in the file.", "quantifier": "all files and prior states with distinct public keys", "why_tests_cant": "unbounded peer sets", "anchors": ["src/setconf.c: sync_conf"]}
{"id": "C21", "title": "What syncconf leaves of the old state", "statement": "After syncconf every setting mentioned in the file, and every peer's allowed-IP list, equals what setconf of the same file would give; but a preshared key, endpoint or keepalive that the file does not mention for a peer that stays is NOT reset, unlike with setconf (counterexample proved).", "quantifier": "all files and prior states", "why_tests_cant": "unbounded states", "anchors": ["src/setconf.c: sync_conf", "src/config.c: config_read_init"]}
{"id": "C22", "title": "setconf result depends only on the file", "statement": "Applying setconf of a file to any prior interface state gives the same peers, keys, allowed IPs, listen port and fwmark.", "quantifier": "all files and prior states", "why_tests_cant": "unbounded states", "anchors": ["src/setconf.c: setconf_main", "src/config.c"]}
{"id": "C23", "title": "Userspace set request says exactly what the configuration says", "statement": "A server that reads the text of the set request according to the cross-platform userspace protocol recovers exactly the device settings, peers, flags and allowed IPs of the configuration, in order, and nothing else; no value can inject an extra line.", "quantifier": "all device configurations", "why_tests_cant": "unbounded peers and lists", "anchors": ["src/ipc-uapi.h: userspace_set_device"]}
{"id": "C24", "title": "Userspace set succeeds only on an explicit errno=0", "statement": "The set operation reports success iff the reply consists of well-formed key=value lines ended by a blank line and its last errno line is errno=0; every other reply is an error.", "quantifier": "all reply byte streams", "why_tests_cant": "unbounded replies", "anchors": ["src/ipc-uapi.h: userspace_set_device"]}
{"id": "C25", "title": "Userspace get yields a device or an error, never both", "statement": "The get operation returns 0 and a device, or nonzero and no device, for every reply; 0 only if the reply was complete (blank line) and its last errno line was errno=0; unknown keys are skipped.", "quantifier": "all reply byte streams", "why_tests_cant": "unbounded replies", "anchors": ["src/ipc-uapi.h: userspace_get_device"]}
{"id": "C26", "title": "Userspace get reads back what a server reports", "statement": "Parsing the reply a server produces for a device state yields that device state: same keys, ports, endpoints, counters, handshake times and allowed IPs, in order.", "quantifier": "all device states", "why_tests_cant": "unbounded peers and lists", "anchors": ["src/ipc-uapi.h: userspace_get_device"]}
{"id": "C27", "title": "Out-of-range prefix lengths in a userspace reply", "statement": "Every allowed IP read from a userspace reply has a prefix length at most 32 (IPv4) or 128 (IPv6); but the stronger claim that an out-of-range prefix in the text is refused is false: the value is first truncated to 8 bits, so '/256' is read as '/0' (counterexample proved).", "quantifier": "all reply byte streams", "why_tests_cant": "infinite inputs", "anchors": ["src/ipc-uapi.h: userspace_get_device"]}
{"id": "C28", "title": "wg show and unresolvable endpoints in a reply", "statement": "'wg show' should print a device or report an error for every reply. It does so except when an endpoint in the reply does not resolve: then get returns a positive code with no device, which show takes for success and dereferences a null pointer (counterexample proved); showconf and syncconf report the error.", "quantifier": "all reply byte streams and resolver answers", "why_tests_cant": "infinite inputs", "anchors": ["src/ipc-uapi.h: userspace_get_device", "src/show.c: show_main"]}
{"id": "C29", "title": "Netlink fragmentation preserves meaning", "statement": "However a configuration is split into netlink messages, applying the messages one after another to any interface state gives the same result as applying the whole configuration at once.", "quantifier": "all configurations, all prior states, all buffer sizes that fit one entry", "why_tests_cant": "unbounded peers and allowed IPs", "anchors": ["src/ipc-linux.h: kernel_set_device"]}
{"id": "C30", "title": "Netlink messages fit and the splitting terminates", "statement": "Every message built fits the socket buffer, every attribute length is the true length, and sending ends after finitely many messages with every peer and allowed IP sent exactly once.", "quantifier": "all configurations", "why_tests_cant": "unbounded sizes", "anchors": ["src/ipc-linux.h: kernel_set_device", "src/netlink.h: mnl_attr_put_check, mnl_attr_nest_start_check, mnl_attr_nest_end, mnl_attr_nest_cancel"]}
{"id": "C31", "title": "Netlink dump reassembly", "statement": "If the kernel dumps a device as any sequence of fragments permitted by the interface documentation, the device read is exactly the device dumped; dumps marked as interrupted are forgotten and repeated. (A peer continued by an entry without allowed IPs and then continued again makes the program dereference a null pointer.)", "quantifier": "all devices and all fragmentations", "why_tests_cant": "unbounded sizes and splits", "anchors": ["src/ipc-linux.h: parse_device, parse_peers, parse_peer, parse_allowedips, parse_allowedip, coalesce_peers, kernel_get_device"]}
{"id": "C32", "title": "Netlink attribute walking stays inside the message", "statement": "For every byte string received whose message lengths are below 2^31 and whose interface names contain a NUL, reading it (attributes at any nesting) ends and reads only these bytes; each condition is necessary. Encoding attributes and walking them gives the attributes back.", "quantifier": "all byte strings", "why_tests_cant": "infinite malformed inputs", "anchors": ["src/netlink.h: mnl_attr_ok, mnl_attr_next, mnl_attr_parse, mnl_attr_parse_nested, __mnl_cb_run"]}
{"id": "C33", "title": "Pretty show hides secrets", "statement": "Unless WG_HIDE_KEYS is 'never', the output of pretty show does not depend on the private key or any preshared key (only on whether they are present).", "quantifier": "all devices and environments", "why_tests_cant": "noninterference over all pairs of devices", "anchors": ["src/show.c: pretty_print, masked_key"]}
{"id": "C34", "title": "Script output is unambiguous", "statement": "The dump output has one line for the device and one per peer with exactly 4 and 8 tab-separated fields (one more with 'all'), and the device facts can be recovered from it; each single-field listing agrees with the corresponding dump column.", "quantifier": "all devices", "why_tests_cant": "unbounded peers and values", "anchors": ["src/show.c: dump_print, ugly_print"]}
{"id": "C35", "title": "Pretty show peer order", "statement": "Pretty show prints each peer exactly once, most recent handshake first and peers without a handshake last.", "quantifier": "all devices and every correct sort", "why_tests_cant": "unbounded peers; comparator must be a consistent order", "anchors": ["src/show.c: peer_cmp, sort_peers"]}
{"id": "C36", "title": "Time formatting", "statement": "The year/day/hour/minute/second split of a duration adds up to the duration, each part is within range, parts equal to zero are omitted, and the text always fits its buffer.", "quantifier": "all 64-bit durations", "why_tests_cant": "2^64 inputs", "anchors": ["src/show.c: pretty_time, ago, every"]}
{"id": "C37", "title": "Color filtering", "statement": "With colors off, the printed text is the text with every terminal escape sequence removed and nothing else; no access outside the buffer happens.", "quantifier": "all strings", "why_tests_cant": "infinite inputs", "anchors": ["src/terminal.c: filter_ansi"]}
{"id": "C38", "title": "showconf output is accepted by setconf and reproduces the configuration", "statement": "Feeding the output of showconf to setconf is accepted and requests exactly the private key, listen port, fwmark, peers, preshared keys, endpoints, keepalives and allowed IPs of the shown device.", "quantifier": "all devices", "why_tests_cant": "unbounded peers and lists", "anchors": ["src/showconf.c: showconf_main", "src/config.c"]}
{"id": "C39", "title": "genkey and genpsk output", "statement": "genkey prints a valid key text whose key is the random bytes with exactly the five fixed bits set as X25519 requires; genpsk prints the random bytes unchanged; if randomness is not fully available nothing is printed and the exit code is 1.", "quantifier": "all outcomes of the random source, including short reads and errors", "why_tests_cant": "all histories of partial reads", "anchors": ["src/genkey.c: get_random_bytes, genkey_main", "src/curve25519.h: curve25519_clamp_secret"]}
{"id": "C40", "title": "pubkey computes X25519 of the base point", "statement": "pubkey accepts exactly a 44-character key text followed by white space (or NULs), and prints the base64 text of X25519(key, 9) as defined in RFC 7748.", "quantifier": "all standard-input contents", "why_tests_cant": "2^256 keys", "anchors": ["src/pubkey.c: pubkey_main", "src/curve25519.c", "src/curve25519-hacl64.h"]}
{"id": "C41", "title": "The 64-bit X25519 code equals RFC 7748 and never overflows", "statement": "For every secret and every point the 64-bit implementation returns the RFC 7748 result; no intermediate 64- or 128-bit value wraps in a way that changes the result.", "quantifier": "all 2^512 inputs", "why_tests_cant": "rare carries cannot be found by testing", "anchors": ["src/curve25519-hacl64.h"]}
{"id": "C42", "title": "The 32-bit X25519 code equals RFC 7748 (and so the 64-bit code)", "statement": "For every secret and every point the 32-bit implementation returns the RFC 7748 result, hence the two builds agree.", "quantifier": "all 2^512 inputs", "why_tests_cant": "rare carries cannot be found by testing", "anchors": ["src/curve25519-fiat32.h"]}
{"id": "C43", "title": "Public key does not depend on the clamped bits", "statement": "Two private keys that differ only in the three lowest bits of the first byte and the two highest of the last byte have the same public key; so pubkey of a genkey key equals that of the raw random bytes.", "quantifier": "all keys", "why_tests_cant": "2^256 inputs", "anchors": ["src/curve25519.h: curve25519_clamp_secret", "src/curve25519-hacl64.h: curve25519_generic"]}
{"id": "C44", "title": "Interface list buffer", "statement": "After adding any sequence of names to the interface list, the buffer holds the nonempty names each followed by a NUL and then a final NUL, every write was inside the allocation, and walking the list visits exactly the names in order.", "quantifier": "all sequences of names", "why_tests_cant": "unbounded sequences with reallocation", "anchors": ["src/ipc.c: string_list_add, ipc_list_devices", "src/show.c: show_main"]}
{"id": "C45", "title": "Command dispatch", "statement": "The tool runs the subcommand whose name equals its first argument, 'show' when there is none, prints version/usage only for the documented words, and exits 1 for any other word.", "quantifier": "all argument lists", "why_tests_cant": "infinite inputs", "anchors": ["src/wg.c: main"]}
{"id": "C46", "title": "Interface names cannot escape the socket directory", "statement": "The userspace socket path opened for a name is RUNSTATEDIR/wireguard/NAME.sock and a name with '/' is refused; the path is exact only while it fits the socket address (longer names are silently truncated - counterexample proved).", "quantifier": "all names", "why_tests_cant": "infinite inputs", "anchors": ["src/ipc-uapi-unix.h: userspace_interface_file, userspace_has_wireguard_interface"]}
{"id": "C47", "title": "set and setconf act on the named interface", "statement": "The interface modified is the one named, for names of at most 15 bytes; a longer name is silently cut to 15 bytes, so a different existing interface can be modified (counterexample proved), while show/showconf refuse such a name for kernel interfaces.", "quantifier": "all names", "why_tests_cant": "infinite inputs", "anchors": ["src/set.c: set_main", "src/setconf.c: setconf_main", "src/ipc-linux.h: kernel_get_device"]}
{"id": "C48", "title": "Exit status of show", "statement": "'wg show all' exits 0 iff there was no interface or at least one was read (and the parameter was valid); 'wg show IFACE' exits 0 iff the interface was read and the parameter valid.", "quantifier": "all sets of interfaces and read outcomes", "why_tests_cant": "unbounded histories", "anchors": ["src/show.c: show_main"]}
{"id": "C49", "title": "List memory is freed exactly once", "statement": "Freeing a device frees every peer and allowed-IP node exactly once and touches no freed node, and every error path of the configuration reader frees each node exactly once.", "quantifier": "all devices and inputs", "why_tests_cant": "unbounded linked structures", "anchors": ["src/containers.h: free_wgdevice", "src/config.c"]}
{"id": "C50", "title": "wg-quick up: failure leaves no interface behind", "statement": "'up' on an existing interface does nothing. Otherwise, whenever it does not reach its end - some command fails or SIGINT/SIGTERM arrives - it undoes DNS and firewall settings made by this run and its last command is the deletion of the interface, unless a command of the undoing itself fails (then the interface stays: counterexample proved); a run that ends with success did every documented step in order, each successfully. A signal while 'resolvconf -a' runs leaves the DNS setting (counterexample), and losing a race for the name deletes the other's interface and exits 0 (counterexample).", "quantifier": "all points of failure", "why_tests_cant": "every crash point of an unbounded command sequence", "anchors": ["src/wg-quick/linux.bash: cmd_up, del_if, add_if, set_dns, add_default"]}
{"id": "C51", "title": "wg-quick strips exactly its own keys", "statement": "The text wg-quick passes to 'wg setconf' (and prints for 'strip') is the file without the lines of an [Interface] section whose key is one of Address, MTU, DNS, Table, PreUp, PreDown, PostUp, PostDown, SaveConfig: the other lines in order, each unchanged except for spaces and tabs around it (and NUL bytes), then one more line feed. Every dropped line is one that wg itself would refuse in any state; what wg reads from the text is what it would read from the kept lines of the file.", "quantifier": "all files", "why_tests_cant": "unbounded files", "anchors": ["src/wg-quick/linux.bash: parse_options, cmd_strip, set_config", "src/config.c: config_read_line"]}
{"id": "C52", "title": "wg-quick save never leaves a truncated configuration", "statement": "At every crash point of 'save' (and of 'down' with SaveConfig) the configuration file holds either the complete old or the complete new configuration; after success it holds the new one: the output of 'wg showconf' with wg-quick's own settings in the [Interface] section. Nothing is written unless the interface is listed and 'wg showconf' succeeded; the new file is never readable by others.", "quantifier": "all crash points", "why_tests_cant": "crash points", "anchors": ["src/wg-quick/linux.bash: save_config"]}
{"id": "C53", "title": "Kernel interface listing is exact", "statement": "The kernel interfaces listed are exactly those whose kind is 'wireguard', in dump order, however the dump is split into messages and datagrams; an interrupted dump ends the list early without an error, and an error code in the dump's last message is ignored (counterexample proved).", "quantifier": "all dumps and fragmentations", "why_tests_cant": "unbounded message sequences", "anchors": ["src/ipc-linux.h: kernel_get_wireguard_interfaces, read_devices_cb, parse_infomsg, parse_linkinfo"]}
{"id": "C54", "title": "wg-quick's own settings mean what the manual says", "statement": "The words of all Address and DNS lines accumulate in file order; DNS words are servers if they consist of digits and dots or contain a colon, otherwise search domains; hooks accumulate in order; the last MTU, Table and SaveConfig win; a SaveConfig that is neither true nor false (in any letter case) makes wg-quick stop before doing anything.", "quantifier": "all files", "why_tests_cant": "unbounded files", "anchors": ["src/wg-quick/linux.bash: parse_options, read_bool"]}
{"id": "C55", "title": "wg-quick only works on validly named interfaces", "statement": "The interface wg-quick works on has a name of one to fifteen bytes from [a-zA-Z0-9_=+.-]: the argument itself when that is such a name (the file is then /etc/wireguard/NAME.conf), otherwise the last component of the given path without .conf; anything else is refused before anything is done.", "quantifier": "all arguments", "why_tests_cant": "unbounded strings", "anchors": ["src/wg-quick/linux.bash: parse_options"]}
{"id": "C56", "title": "wg-quick up: the MTU", "statement": "When 'up' succeeds the interface was brought up exactly once, after all addresses were assigned and before DNS and routes, with the configured MTU; without one, with 80 less than the MTU of the path: the largest of the MTUs of the routes (or links) to the endpoints 'wg' reports, without any that of the first default route, without that 1500. The path MTU is determined by what 'wg' and 'ip' print.", "quantifier": "all configurations and command outputs", "why_tests_cant": "unbounded lists of peers and arbitrary command outputs", "anchors": ["src/wg-quick/linux.bash: set_mtu_up, add_addr, cmd_up"]}
{"id": "C57", "title": "wg-quick up: the routes", "statement": "When 'up' succeeds, routes were added for exactly the networks 'wg' reports as allowed IPs, longest prefixes first: with Table=off nothing; with a table, each into that table; otherwise each network into the main table unless a route for it is shown on the interface, and each default route into a table of its own (the first free one from 51820 on, or the interface's mark), with rules that send unmarked packets there unless the main table has a more specific route, and firewall rules for the interface's addresses. All default routes of both families use one table, which is the interface's firewall mark in the end.", "quantifier": "all sets of allowed IPs and command outputs", "why_tests_cant": "unbounded lists and histories", "anchors": ["src/wg-quick/linux.bash: add_route, add_default, get_fwmark, cmd_up"]}
{"id": "C58", "title": "wg-quick down: order and refusal", "statement": "'down' and 'save' of a name that 'wg show interfaces' does not list do nothing and exit 1. 'down' runs the PreDown hooks, then saves if SaveConfig is set, then removes the interface, then DNS and firewall settings, then runs the PostDown hooks; nothing is removed before all PreDown hooks succeeded and the configuration was saved; success means every step was done, where only failures to remove DNS or firewall settings are ignored.", "quantifier": "all system behaviours and points of failure", "why_tests_cant": "unbounded histories of command outcomes", "anchors": ["src/wg-quick/linux.bash: cmd_down, cmd_save, del_if, unset_dns, remove_firewall, execute_hooks"]}
{"id": "C59", "title": "wg-quick save: the saved file is read back as what was saved", "statement": "A file written by 'wg-quick save' is accepted by the next 'wg-quick up', which then finds in it the addresses, MTU and DNS servers that the system showed, the Table, SaveConfig and hook settings as originally configured, and passes to 'wg setconf' a text that means exactly what 'wg showconf' printed; so down with SaveConfig followed by up restores the device configuration.", "quantifier": "all configurations, device states, outputs of ip, resolvconf and wg showconf", "why_tests_cant": "unbounded texts and outputs; requires composing the bash substitution with two parsers", "anchors": ["src/wg-quick/linux.bash: save_config, parse_options, cmd_up, set_config", "src/showconf.c", "src/config.c"]}
{"id": "C60", "title": "wg-quick down: the routing rules of others", "statement": "Whatever happens while an interface is taken down, routing rules that neither look up the table of its mark nor suppress default routes of the main table stay as they are, and none is added. A successful 'down' of an interface with a default route in a table wg-quick chose removes exactly the rules of that table and the suppress rules; otherwise no rule changes; 'up' followed by 'down' restores the rules. Limits proved as counterexamples: suppress rules of other interfaces and of the administrator are removed too; a table number that begins with the digits of the mark makes 'down' fail; rules are left behind if the default-route peer was removed.", "quantifier": "all sets of routing rules, all system behaviours and points of failure", "why_tests_cant": "unbounded rule lists and histories of command outcomes; the loop condition is a substring search in a listing", "anchors": ["src/wg-quick/linux.bash: del_if, get_fwmark, add_default, cmd_down, cmd_up"]}
{"id": "C61", "title": "wg-quick: the firewall rules of others", "statement": "Whatever happens while an interface is brought up or taken down, nftables tables that are not the interface's neither appear nor vanish, and iptables tables keep their chains and all rules that do not carry the interface's comment, in their order. A successful 'down' in which nft and iptables do what they are told removes exactly the interface's tables and rules; so an attempt at 'up', however it ends, followed by a successful 'down' restores the firewall. Failures of nft or iptables during 'down' go unreported and leave rules behind (counterexample).", "quantifier": "all firewall states, all system behaviours and points of failure", "why_tests_cant": "unbounded rule sets and histories of command outcomes; ownership is decided by patterns on listings", "anchors": ["src/wg-quick/linux.bash: remove_firewall, add_default, cmd_up, cmd_down"]}
{"id": "C62", "title": "From words and files to the state of the interface, and back", "statement": "When 'wg setconf', 'addconf' or 'set' exits with status 0, the bytes that left the process, as netlink messages or on a userspace socket, take the named interface from any state to exactly the state the file or words ask for; a failed command sent nothing or a beginning of that change. The same file gives kernel and userspace interfaces the same state. 'wg showconf' of one interface followed by 'wg setconf' of its text on another makes the other equal to the first, whatever protocols both speak. After 'wg syncconf' the interface has exactly the file's peers and the settings setconf would have given.", "quantifier": "all files, arguments, interface states, protocol answers, message splittings and kinds of interface", "why_tests_cant": "composition of parser, dispatch and two wire protocols over unbounded inputs and histories", "anchors": ["src/setconf.c: setconf_main", "src/set.c: set_main", "src/showconf.c: showconf_main", "src/ipc.c: ipc_set_device, ipc_get_device", "src/ipc-linux.h: kernel_set_device, kernel_get_device", "src/ipc-uapi.h: userspace_set_device, userspace_get_device"]}
{"id": "C63", "title": "Netlink requests go to the WireGuard family, and nothing is left open", "statement": "Reading or changing a kernel interface first sends one request to the generic netlink controller for the family 'wireguard' and then only requests of wireguard's own commands to the family id the kernel told in answer, naming the interface; if the controller tells an id and acknowledges, that id is used, if it refuses, nothing more is sent and the error (protocol not supported for an unknown family) is reported. Listing sends one request for all links. On every path, including failures of allocation, socket, bind and send, every allocation and descriptor is released exactly once and none is released that is not held. An acknowledgement without an answer makes the program use family id 0 (counterexample proved).", "quantifier": "all replies, fragmentations and points of failure", "why_tests_cant": "unbounded byte streams and failure points", "anchors": ["src/netlink.h: mnlg_socket_open, mnlg_socket_close, genl_ctrl_ev_handler, mnl_socket_open, mnl_socket_close", "src/ipc-linux.h: kernel_set_device, kernel_get_device, kernel_get_wireguard_interfaces"]}
{"id": "C64", "title": "wg-quick as a whole", "statement": "Without exactly one of the documented argument forms wg-quick prints its usage and does nothing (status 1; 0 for help); without root rights it only re-executes itself through sudo with the same arguments; if the file is missing, unreadable, not named like an interface or has a bad SaveConfig it exits 1 without running any command; otherwise it carries out the operation asked for with that file's settings. When 'up' exits 0 without having deleted the interface again, all steps were done and 'wg setconf', however it reached the interface, took it from any state to exactly the one described by the file's lines that are not wg-quick's own.", "quantifier": "all arguments, files, system behaviours, interface states", "why_tests_cant": "composition of argument handling, parser, command sequence and wire protocols over unbounded inputs", "anchors": ["src/wg-quick/linux.bash: main, auto_su, parse_options, cmd_up, cmd_down, cmd_save, cmd_strip"]}
{"id": "C65", "title": "OpenBSD: what the kernel is told and what it tells", "statement": "On OpenBSD, setting an interface hands the kernel exactly one buffer, without touching a byte outside it, that by the documented layout says exactly what the configuration asks for; errors are returned. Showing an interface yields what one single answer of the kernel said, even if the interface changes between the calls that find the size, without reading outside the answer; listing yields the members of the interface group. Defects proved: IPv6 endpoints are never shown; names that are too long are cut, so that another interface is shown.", "quantifier": "all configurations, interface states, changes between calls, failures", "why_tests_cant": "unbounded structures of peers and allowed IPs in raw memory; unbounded retry loops", "anchors": ["src/ipc-openbsd.h: kernel_set_device, kernel_get_device, kernel_get_wireguard_interfaces", "src/uapi/openbsd/net/if_wg.h"]}
{"id": "C66", "title": "FreeBSD: what the kernel is told and what it tells, and what is released", "statement": "On FreeBSD, setting an interface sends at most one request, a name-value list that read by name is exactly what the configuration asks for; whichever allocation fails, its error is returned, nothing is sent, everything allocated is released once and nothing twice. Showing an interface yields all that the kernel's list says, IPv6 endpoints included; an interface that grows between the two calls is an error, never a part of it. Defects proved: the packed request is never released; a prefix length out of range gives a positive code and a null device; the size of addresses is not checked; names that are too long are cut.", "quantifier": "all configurations, kernel answers, failing allocations", "why_tests_cant": "unbounded structures of peers and allowed IPs; every allocation may fail", "anchors": ["src/ipc-freebsd.h: kernel_set_device, kernel_get_device"]}
{"id": "C67", "title": "Embeddable library: keys", "statement": "wg_generate_public_key of the embeddable library writes X25519(key, 9), the same as wg pubkey, for every key and whatever its uninitialized arrays hold, without signed overflow or access outside an array; wg_key_from_base64 accepts exactly the texts that wg_key_to_base64 prints, and gives back the key; wg_generate_preshared_key and wg_generate_private_key return only 32 random bytes of the system (the latter clamped), or abort. Defect proved: a refused text can overwrite the caller's key.", "quantifier": "all keys, all strings, all behaviours of the random source, all contents of uninitialized memory", "why_tests_cant": "2^256 keys; carries and signed overflow in rare limbs; all contents of stack memory; all sequences of short reads", "anchors": ["contrib/embeddable-wg-library/wireguard.c: wg_generate_public_key, wg_generate_private_key, wg_generate_preshared_key, wg_key_from_base64, wg_key_to_base64, wg_key_is_zero"]}
{"id": "C68", "title": "Embeddable library: interfaces", "statement": "wg_set_device of the embeddable library sends the messages wg itself would send; wg_get_device, if not interrupted, sends, releases and returns what wg does, in particular exactly what the kernel's dump says or the kernel's error; wg_list_device_names yields exactly the WireGuard interfaces, in order, walked by wg_for_each_device_name; wg_add_device and wg_del_device send one request that adds or deletes an interface of that name and kind wireguard, and return what the kernel answers. Everything is released exactly once on every path. Defects proved: after one interrupted attempt wg_get_device never returns a device and asks forever although the kernel answers; names longer than the buffer are written behind it; adding and deleting take the answer to another request, or an empty one, as theirs.", "quantifier": "all kernel answers, fragmentations, interruptions, names and points of failure", "why_tests_cant": "unbounded answers, retry loops and failure points", "anchors": ["contrib/embeddable-wg-library/wireguard.c: wg_set_device, wg_get_device, wg_list_device_names, wg_add_device, wg_del_device, add_del_iface, fetch_device_names", "contrib/embeddable-wg-library/wireguard.h: wg_for_each_device_name"]}
{"id": "C69", "title": "Windows: what the driver is told and what it tells", "statement": "On Windows, setting a device gives the driver exactly one buffer; read by the documented layout it is what the configuration asks for (except a mark), complete, nothing behind it; no byte outside the buffer is touched; a configuration too big for 32 bits of length, a missing adapter, lack of memory or a refusal give an error. Getting shows all of what one single answer of the driver said, however the interface changes between calls, with the handshake time converted exactly; every failure gives an error and no device. Defects proved: a mark is dropped without notice; after a refused get the adapter stays open.", "quantifier": "all configurations, all answers, all changes of the interface between calls", "why_tests_cant": "unbounded configurations and histories of the driver", "anchors": ["src/ipc-windows.h: kernel_set_device, kernel_get_device", "src/uapi/windows/wireguard.h"]}
{"id": "C70", "title": "Windows: which adapter or pipe a name stands for", "statement": "On Windows, listing yields exactly the running adapters and the pipes of userspace implementations; an operation on a name goes to the pipe with that name if there is one, else to the adapter with that name, else nowhere with ENOENT, the same whether devices were listed (and remembered in the hash table) before or not; a pipe that is not owned by the local system is never used. Defects proved: an adapter whose name has 127 characters makes listing and opening read beyond an array; an adapter whose identifier could not be read afterwards stands for any network device; if devices cannot be enumerated, set and get succeed without doing anything; a persistent enumeration error never ends; lack of memory silently shortens the list; if pipes cannot be listed no adapter can be reached.", "quantifier": "all sets of adapters and pipes, names, hash collisions, and failures of system calls", "why_tests_cant": "unbounded sets of devices and all failure points", "anchors": ["src/ipc-windows.h: kernel_get_wireguard_interfaces, kernel_interface_handle", "src/ipc-uapi-windows.h", "src/wincompat/include/hashtable.h", "src/ipc.c"]}
{"id": "C71", "title": "Windows: reading lines and splitting strings", "statement": "The getline and strsep that wg brings along on Windows do what the rest of wg assumes: reading a file in a loop yields exactly its lines, of any length, without a byte written outside the buffer, whatever memory and the stream do; what is seen after a failure is an unchanged prefix of the lines; splitting a string yields exactly its pieces and changes nothing but the separators. Defects proved: a read error or lack of memory counts as the end of the file; with a buffer of one byte getline writes behind it.", "quantifier": "all files, line lengths, buffers, allocation failures and strings", "why_tests_cant": "unbounded line lengths and all points of failure", "anchors": ["src/wincompat/libc.c: getdelim, getline, strsep"]}
{"id": "C72", "title": "Highlighter: spans and printing", "statement": "For every configuration, if memory suffices, highlight_config finishes without touching memory it must not and returns spans that are in order, disjoint, not empty, inside the configuration, leave out only white space, and end with one end mark; the highlight program prints its input, every byte once and in order, with nothing but colour sequences inserted, the colours being those of the spans. Defects proved: without memory the program reads through NULL, and so does the library for a list that ends with a comma; an allocation that fails later silently loses all spans so far.", "quantifier": "all configurations, all inputs, both signednesses of char, all allocation failures", "why_tests_cant": "unbounded texts; parser with one byte of look-ahead at the end of buffers", "anchors": ["contrib/highlighter/highlighter.c: highlight_config, append_highlight_span, highlight_value, highlight_multivalue, highlight_multivalue_value", "contrib/highlighter/highlight.c: main, colorize"]}
{"id": "C73", "title": "Highlighter: what is highlighted as what", "statement": "The spans are exactly those that a description line by line gives: comments, section headers, names valid in their section, delimiters, values that are a key, number, address, name, network, endpoint, command by an independent definition (addresses: what inet_pton takes), and everything else marked as an error; the described parts are together the whole configuration.", "quantifier": "all configurations", "why_tests_cant": "unbounded texts; validators equal to independent specifications for every text", "anchors": ["contrib/highlighter/highlighter.c: highlight_config, is_valid_key, is_valid_hostname, is_valid_ipv4, is_valid_ipv6, is_valid_uint, is_valid_port, is_valid_mtu, is_valid_persistentkeepalive, is_valid_fwmark, is_valid_table, is_valid_saveconfig, is_valid_scope, is_valid_endpoint, is_valid_network, get_field, get_sectiontype"]}
{"id": "C74", "title": "Highlighter: no error shown means wg accepts", "statement": "If the highlighter marks nothing of a configuration as an error, what remains after removing the settings of wg-quick follows the syntax documented for wg and is accepted by wg setconf with its documented meaning, provided that lists have no empty items, each peer has a public key and endpoints resolve. Defects proved: without these provisos it is false (empty list items and peers without key are not shown), and the converse is false (CRLF files).", "quantifier": "all configurations", "why_tests_cant": "two independent parsers compared on all texts", "anchors": ["contrib/highlighter/highlighter.c: highlight_config", "src/config.c: config_read_line, process_line", "src/setconf.c"]}
{"id": "C75", "title": "BSD and macOS: up is done completely, refused or undone", "statement": "On FreeBSD, OpenBSD and macOS wg-quick up ends in one of four ways: everything was done, in the documented order (interface made, hooks before, configuration loaded, addresses, MTU, interface up, routes, routes to endpoints, DNS, monitor, hooks after), with exit status 0; the interface existed and nothing was done; nothing but questions happened; or something failed or was interrupted and then interface, routes, routes to endpoints and (FreeBSD, OpenBSD) DNS are undone, unless undoing itself fails. Without signals, exit status 0 means that everything was done. Defects proved: FreeBSD takes over an interface that another program made in the meantime; it leaves its temporary directory if there is nothing to destroy; a signal while the interface is made leaves it on OpenBSD; a signal during resolvconf (FreeBSD) or before the monitor starts (macOS) leaves DNS changed; an interrupted up can exit with 0; OpenBSD without unwind and resolvd ignores DNS silently.", "quantifier": "all configurations, platforms, answers of commands, points of failure and signals", "why_tests_cant": "every command may fail or be interrupted, with unbounded lists and retry loops", "anchors": ["src/wg-quick/freebsd.bash:cmd_up", "src/wg-quick/openbsd.bash:cmd_up", "src/wg-quick/darwin.bash:cmd_up"]}
{"id": "C76", "title": "BSD and macOS: endpoints stay reachable under a default route", "statement": "After wg-quick up on FreeBSD, OpenBSD or macOS with an allowed IP of length 0 and automatic tables, every endpoint of that family has a host route through the gateway of the default route as last seen (or a black hole if there is none), no other host's route has changed, and the same holds whenever the process left behind waits for the next routing message, whatever gateways and endpoints changed into; without a default route no host's route is touched.", "quantifier": "all configurations, platforms, answers of commands, numbers of routing events, changes of gateways and endpoints", "why_tests_cant": "an unbounded sequence of routing events with arbitrary changes in between, and arbitrary failures of commands", "anchors": ["src/wg-quick/freebsd.bash:set_endpoint_direct_route,monitor_daemon", "src/wg-quick/openbsd.bash:set_endpoint_direct_route,monitor_daemon", "src/wg-quick/darwin.bash:set_endpoint_direct_route,monitor_daemon"]}
{"id": "C77", "title": "BSD and macOS: the host routes are gone at the end", "statement": "When the process that wg-quick up left behind has ended, because the interface is gone, a command failed or a signal came (not while it was listing the endpoints or deleting a route), every host has the route it had before up.", "quantifier": "all configurations, platforms, answers of commands, points of failure and signals", "why_tests_cant": "the end may come at any point of an unbounded run", "anchors": ["src/wg-quick/freebsd.bash:del_routes,monitor_daemon", "src/wg-quick/openbsd.bash:del_routes,monitor_daemon", "src/wg-quick/darwin.bash:del_routes,monitor_daemon"]}
{"id": "C78", "title": "BSD and macOS: routes to the allowed IPs", "statement": "After a successful wg-quick up on FreeBSD, OpenBSD or macOS with automatic tables, every allowed IP that wg shows has a route through the interface (a default route as two halves; on OpenBSD through the first address of the family), unless the system said that it goes there already; no other network's route has changed; with another table every route was added to that table; with table off none. Defect proved: on FreeBSD an interface name with a dot or plus is taken as a regular expression, so that a route through another interface counts as its own.", "quantifier": "all configurations, platforms, allowed IPs, answers of commands", "why_tests_cant": "unbounded lists of networks with duplicates and overlaps, arbitrary answers", "anchors": ["src/wg-quick/freebsd.bash:add_route", "src/wg-quick/openbsd.bash:add_route", "src/wg-quick/darwin.bash:add_route"]}
{"id": "C79", "title": "BSD and macOS: the MTU", "statement": "After a successful wg-quick up the MTU of the interface was set to the configured value, or to 80 less than the largest MTU of the interfaces towards the endpoints (FreeBSD, OpenBSD) or than that of the interface of the default route (macOS), else to 1420; nothing changes it later except that on macOS, whenever the monitor waits, the MTU was determined anew after the last routing message. Defect proved: on FreeBSD and OpenBSD the MTU of the default route is asked for but never used.", "quantifier": "all configurations, platforms, answers of commands, numbers of routing events", "why_tests_cant": "unbounded sequences of routing events and endpoints", "anchors": ["src/wg-quick/freebsd.bash:set_mtu", "src/wg-quick/openbsd.bash:set_mtu", "src/wg-quick/darwin.bash:set_mtu"]}
{"id": "C80", "title": "BSD and macOS: wg-quick save never leaves a truncated configuration", "statement": "At every crash point of save on FreeBSD, OpenBSD and macOS the configuration file holds the complete old or the complete new configuration; without signals status 0 means the new one: the output of a successful wg showconf of the interface that was found, with the addresses and name servers as found in place of its first [Interface] line. Whatever the end, the history is one of: saved; interface missing and nothing done; nothing but questions; stopped, with the temporary file removed. Defects proved: prefix lengths and search domains are lost; on macOS scoped link-local addresses are saved.", "quantifier": "all configurations, platforms, answers and failures of commands, signals, crash points", "why_tests_cant": "crash points, arbitrary answers of commands", "anchors": ["src/wg-quick/freebsd.bash:save_config", "src/wg-quick/openbsd.bash:save_config", "src/wg-quick/darwin.bash:save_config"]}
{"id": "C81", "title": "BSD and macOS: wg-quick down", "statement": "Without signals, status 0 of down means that the interface was found and then, in order and successfully, the PreDown hooks, saving if configured, removal of the interface, withdrawal of the name servers and the PostDown hooks were done; a missing interface is refused and nothing is changed; otherwise down stopped at the first command that failed or was interrupted, and no later step was begun; on FreeBSD it may wait for the interface to go away. At every crash point the configuration file holds the complete old or, only with SaveConfig, the complete new configuration. Defects proved: a failing resolvconf skips the PostDown hooks; an interrupted down can end with status 0.", "quantifier": "all configurations, platforms, hooks, answers and failures of commands, signals, crash points", "why_tests_cant": "crash points, arbitrary answers of commands, unbounded lists of hooks", "anchors": ["src/wg-quick/freebsd.bash:cmd_down", "src/wg-quick/openbsd.bash:cmd_down", "src/wg-quick/darwin.bash:cmd_down"]}
{"id": "C82", "title": "macOS: DNS settings of network services while the interface is up, and after it", "statement": "On macOS, after a successful up and whenever the route monitor waits for the next event, every network service that was in the last listing has exactly the configured DNS servers and search domains, and no routing message came since that listing; without DNS in the configuration, no setting is touched (so search domains alone are ignored). When the monitor has ended, by the end of its loop, by a failing command or by a signal at any point, every service has the DNS servers and search domains it had before up, none included. Defect proved: a service that is not listed for a while has the DNS servers of the tunnel afterwards.", "quantifier": "all configurations with any number of servers and domains, all services and their former settings, all answers and failures of other commands, any number of routing events, signals at every command", "why_tests_cant": "arbitrary sequences of events, failures and signals; long-running process", "anchors": ["src/wg-quick/darwin.bash:collect_new_service_dns", "src/wg-quick/darwin.bash:set_dns", "src/wg-quick/darwin.bash:del_dns", "src/wg-quick/darwin.bash:monitor_daemon"]}
{"id": "C83", "title": "BSD wg-quick as a whole: arguments, search path and root rights", "statement": "On FreeBSD, OpenBSD and macOS, help and wrong usage print the usage message and change nothing (FreeBSD: but a temporary directory, removed again), with status 0 and 1; without root rights the script is replaced by sudo or doas with the same arguments; an interface name stands for NAME.conf in the first directory of the search path that has it, anything else for itself; a file that is missing, misnamed, unreadable or has a wrong SaveConfig is refused with status 1 before anything is done; otherwise exactly the operation asked for is carried out with the settings of that file, strip prints exactly the lines that are not wg-quick's own, and after a successful up the interface is configured as these lines say, however it was before. Defects proved: on FreeBSD without root rights the temporary directory stays; on macOS an existing file given by its bare name is refused, and for a file in the root directory the one of that name in the working directory is read.", "quantifier": "all argument lists, file systems, files (any bytes), systems, answers of all commands, signals", "why_tests_cant": "all files and file systems; every failure and signal", "anchors": ["src/wg-quick/freebsd.bash:parse_options", "src/wg-quick/freebsd.bash:auto_su", "src/wg-quick/openbsd.bash:auto_su", "src/wg-quick/darwin.bash:parse_options", "src/wg-quick/darwin.bash:detect_launchd"]}
{"id": "C84", "title": "Android wg-quick reads the configuration file right", "statement": "On Android, an interface name stands for NAME.conf in the first directory of the search path that has it, anything else for itself; if there is no such file, or no interface name can be taken from its name, the program ends with an error before anything is done. Otherwise wg is given exactly the lines that are no settings of wg-quick, unchanged and in order, and addresses, DNS entries and application lists are those of all such settings in the file, MTU that of the last one. Defects proved: a file name that is too long for an interface is cut to its last fifteen bytes; after a line of more than 65536 bytes the rest of the file is silently ignored and variables stay NULL; a comment behind a value is part of it and one behind a section header hides the section.", "quantifier": "all file systems, arguments and files (any bytes; no line above 65536 bytes for the settings)", "why_tests_cant": "all files and names", "anchors": ["src/wg-quick/android.c:parse_options", "src/wg-quick/android.c:concat_and_free"]}
{"id": "C85", "title": "On Android exactly the applications configured use the tunnel", "statement": "When wg-quick up ends with success on Android: with ExcludedApplications, every uid below 99999 is added to the network of the tunnel unless an application in the list has it, and no uid of such an application is; with IncludedApplications exactly the uids of the applications in the list are; without lists all uids up to 99999 are; both lists at once are refused. The uids are given to ndc in commands of at most eighteen arguments, as numbers and ranges. Defects proved: the loop over the list goes on behind its terminator, so memory contents are taken for names, and the array of uids can overflow; an empty list is read behind its end; excluding uid 99998 excludes 99999 too.", "quantifier": "all package lists (distinct names, usual uids), application lists, replies of the system and random numbers; memory behind the list begins with a NUL", "why_tests_cant": "all package lists and lists of applications", "anchors": ["src/wg-quick/android.c:set_users", "src/wg-quick/android.c:get_uid_list", "src/wg-quick/android.c:compare_uid", "src/wg-quick/android.c:cmd_up"]}
{"id": "C86", "title": "wg-quick down on Android removes the interface, its rules and its network", "statement": "When wg-quick down ends with 0 on Android, the interface was listed by wg show interfaces and exactly these commands were run, all with success: the interface is deleted, every rule with its comment that iptables-save and ip6tables-save show is deleted, in order and no other, the network whose number the first matching line of ip rule show gives is destroyed, and the application is told unless it is the caller. If the interface is not listed, nothing but that question is run and the program ends with an error. Defects proved: a rule of an interface with a longer name is taken for this one's, and the wrong network is destroyed; a dot in a name stands for any byte, and rules of other interfaces are deleted; with a plus in the name its own rules stay; two of them make down impossible.", "quantifier": "all names without dots and pluses, outputs and replies of all commands", "why_tests_cant": "all outputs of the commands and all failures of them", "anchors": ["src/wg-quick/android.c:del_if", "src/wg-quick/android.c:cmd_down", "src/wg-quick/android.c:broadcast_change", "src/wg-quick/android.c:cmd"]}
{"id": "C87", "title": "wg-quick up on Android is complete or undone", "statement": "When wg-quick up ends with 0 on Android, the interface did not exist before, and exactly these things were done in this order, every command with success: the interface is made, given the configuration, marked and let through the firewall (its port too; IPv6 packets to the port are dropped when there are endpoints and none is an IPv6 one), started, given a network with a number from 4096 to 65535, its addresses (each an IPv6 address, or an IPv4 address with its prefix length or 32), DNS servers and search domains (nothing without a server or beyond 65536 bytes), one route for each allowed IP, the configured MTU or that of the path less 80, and its users, and the application is told. When it ends with an error, either nothing but the question whether the interface exists was run, or everything was undone: the interface is deleted first, then its rules, then its network; a part of that is missing only if the output of a command for it could not be read or the network daemon reported an error. It does end, if no signal kills it, the configuration was read to its end and the package list is well-formed. Defects proved: endpoints are never recognised and the MTUs of their routes are ignored; a signal leaves the interface; a line of over 65536 bytes crashes the program after the interface was made; two pluses in the name prevent undoing.", "quantifier": "all configurations, all outputs and results of all commands, every point of failure", "why_tests_cant": "a failure is possible at every one of an unbounded number of commands, with every output", "anchors": ["src/wg-quick/android.c:cmd_up", "src/wg-quick/android.c:cmd_up_cleanup", "src/wg-quick/android.c:up_if", "src/wg-quick/android.c:set_addr", "src/wg-quick/android.c:set_dnses", "src/wg-quick/android.c:set_routes", "src/wg-quick/android.c:set_mtu", "src/wg-quick/android.c:set_config", "src/wg-quick/android.c:determine_listen_port"]}
{"id": "C88", "title": "Values of the configuration are no shell commands on Android", "statement": "On Android, whatever the configuration file has as interface name, addresses, DNS servers, applications, MTU and settings for wg, and whatever becomes of the run, every command line that wg-quick up or down gives to the shell runs exactly one program, one of ip, wg, iptables, ip6tables, iptables-save, ip6tables-save, ndc and am, with arguments, and nothing else; an address and a DNS server is exactly one argument, with the bytes it has in the file. Required is that search domains, and what ip, wg and iptables-save print, have no meaning to the shell. Defect proved: search domains are not quoted, since the quotes around each of them end those around all; a domain ;reboot; in the file runs reboot as root (when the resolver service is not available).", "quantifier": "all configuration files, all outputs and results of commands, all failures", "why_tests_cant": "there are unboundedly many values and ways of quoting", "anchors": ["src/wg-quick/android.c:set_addr", "src/wg-quick/android.c:add_addr", "src/wg-quick/android.c:set_dnses", "src/wg-quick/android.c:cmd", "src/wg-quick/android.c:cndc"]}
{"id": "C89", "title": "wg-quick on Android from the command line to the commands", "statement": "On Android, wg-quick runs commands only when it is root and its arguments are up NAME or down NAME, where a file for NAME can be read whose path gives an interface name (otherwise it prints its usage, starts itself again through su, or refuses); its status is 0 only when help was asked for, or when up or down has run. When up NAME ends with 0, all that is done is bringing the interface up with exactly the addresses, DNS servers, MTU and settings for wg that the file says, and all of it succeeded; when it fails after the file was read, nothing was done or the interface was removed again (or the removal itself had trouble).", "quantifier": "all argument vectors, file systems, configuration files, outputs and results of commands", "why_tests_cant": "there are unboundedly many files, arguments and results of commands", "anchors": ["src/wg-quick/android.c:main", "src/wg-quick/android.c:auto_su", "src/wg-quick/android.c:parse_options", "src/wg-quick/android.c:cmd_up"]}
{"id": "C90", "title": "The keys of the key generator page", "statement": "For all 32 random bytes of the browser, window.wireguard.generateKeypair (contrib/keygen-html) returns the base64 texts of a key pair: the private key is the random bytes with exactly the five fixed bits of a private key set, and the public key is X25519(private key, 9), the one that wg pubkey prints for this private key. None of the double precision operations on the way is rounded, although the code computes with numbers of up to 46 bits and mixes 32-bit operators with doubles.", "quantifier": "all 32-byte random values (2^256)", "why_tests_cant": "2^256 inputs; a limb that leaves 32 bits or 53 bits would give wrong keys for rare inputs only", "anchors": ["contrib/keygen-html/wireguard.js:generatePublicKey", "contrib/keygen-html/wireguard.js:generatePrivateKey", "contrib/keygen-html/wireguard.js:keyToBase64", "contrib/keygen-html/wireguard.js:multmod", "contrib/keygen-html/wireguard.js:pack"]}
{"id": "C91", "title": "JSON of all interfaces", "statement": "For every state of the interfaces, if the names and endpoints consist of printable ASCII other than quotes and backslashes, what contrib/json/wg-json prints is one JSON text (RFC 8259) and a line feed. The text means an object with one member for each interface that wg show all dump could read, in order, which holds exactly the fields that are set - private key, public key, port, mark (as a number); for each peer in order preshared key, endpoint, handshake time, counters and keepalive - and all allowed IPs in order as an array.", "quantifier": "all lists of interfaces, all device states with any number of peers and allowed IPs, counters up to 2^64-1", "why_tests_cant": "The script splits and reassembles text of unbounded size, with delimiters depending on which fields come before; every combination of unset fields and empty lists must give valid JSON", "anchors": ["contrib/json/wg-json", "src/show.c:dump_print"]}
{"id": "C92", "title": "Re-resolving endpoints", "statement": "For every interface name or configuration path, every configuration file and every history of the machine, contrib/reresolve-dns/reresolve-dns.sh goes through the [Peer] sections that have a public key and an endpoint, in order, and sets the endpoint of a peer - with the text in the file, on the interface the file is named after - if and only if the interface has a peer with this key whose latest handshake is more than 135 seconds ago (or never was). It runs nothing else. If setting an endpoint fails the script ends with that status, otherwise with 0. Whatever the commands print, it never sets an endpoint that does not stand in the file with this key.", "quantifier": "all configuration files, all listings of wg show, all times, all outcomes of the commands", "why_tests_cant": "The script matches keys in a listing of any length with a regular expression and carries state between lines; a wrong match moves the traffic of one peer to the address of another", "anchors": ["contrib/reresolve-dns/reresolve-dns.sh:process_peer", "contrib/reresolve-dns/reresolve-dns.sh:reset_peer_section"]}
{"id": "C93", "title": "Where a peer was last heard from", "statement": "For every sequence of datagrams and failed receives, contrib/nat-hole-punching/nat-punch-server.c answers every datagram of 64 bytes or more at once, with one datagram to its sender and to nobody else: the address and port the wanted key was last heard from, or an empty datagram if it was never heard - as long as at most 65536 different keys have been heard and the wanted key is not all zeros. Other datagrams are not answered and change no answer. In general the server behaves as a queue of 65536 keys in which a new key pushes out the one that came in first.", "quantifier": "all histories of datagrams of all lengths from all addresses, with failures of recvfrom anywhere, and all keys", "why_tests_cant": "The state is a table of 65536 entries, reused in turn, with a counter that overflows; what an answer must be depends on the whole history", "anchors": ["contrib/nat-hole-punching/nat-punch-server.c:find_entry", "contrib/nat-hole-punching/nat-punch-server.c:find_or_insert_entry", "contrib/nat-hole-punching/nat-punch-server.c:main"]}
{"id": "C94", "title": "The addresses of the peers", "statement": "For an interface with any key, port and fewer than 65536 peers, at every moment of a run of contrib/nat-hole-punching/nat-punch-client.c, whatever the network and the commands do: all it sends are requests with the key of the interface, from its port, for one of its peers, to the server, after installing a filter that lets exactly the packets from the server's address and port 49918 to the port of the interface through. A peer is changed only right after it was asked for and a packet with an address was received, and gets this address. The client ends with status 0 only when every peer was given an address exactly once (whether wg set succeeds is not looked at). If the server of C93 is at the other end and the network loses, repeats and delays nothing, every address is the one the server last heard this peer from, whatever others send to it; and if it has heard all peers before, one round is enough.", "quantifier": "all environments: outcomes of every call, contents of every received packet, all rounds, all traffic of others to the server", "why_tests_cant": "Which answer belongs to which request, and whether the loop ever ends, depends on every schedule of the network and of the other clients", "anchors": ["contrib/nat-hole-punching/nat-punch-client.c:main", "contrib/nat-hole-punching/nat-punch-client.c:read_peers", "contrib/nat-hole-punching/nat-punch-client.c:apply_bpf", "contrib/nat-hole-punching/nat-punch-client.c:cmd"]}
{"id": "C95", "title": "An address for every client of the demo server", "statement": "For every sequence of connections to contrib/ncat-client-server/server.sh, one after the other, whatever the clients send and whichever handshakes take place between them: every peer of the interface has exactly one address, 192.168.4.2 to 192.168.4.254, no two have the same, and there are at most 253. A client that sends its key is told (and client.sh reads) the key and the port of the server and an address that is now its own and nobody else's, the lowest free one if there is room; the other peers keep theirs, but when there are 253, one without a more recent handshake than any other is removed. A client that sends anything else is told ERROR and gets nothing. However connections overlap, no address is ever that of two peers.", "quantifier": "all histories of connections with all inputs, all handshake times, all ties in sort; for the last sentence all interleavings", "why_tests_cant": "The address depends on the whole history of the interface, and on a search for text in a listing of any content; a client may be told an address another is being given", "anchors": ["contrib/ncat-client-server/server.sh", "contrib/ncat-client-server/client.sh"]}
{"id": "C96", "title": "The keys of a handshake", "statement": "For every content of the kernel's memory, every address of the handshake and every list of offsets, the probe defined by contrib/extract-handshakes/extract-handshakes.sh fetches the four words of every key from where the key is, through a pointer or not; and from every line the kernel prints for it the script shows, on a big-endian machine, exactly the keys in memory, each under its name, in base64. On a little-endian machine it shows the key with, in each word of 8 bytes, the zero bytes of its end moved to its beginning: so a key is right exactly if each of its four words is zero or does not end with a zero byte. Other lines are passed over.", "quantifier": "all memories, registers, pointer sizes, offsets, headers of trace lines, and all ways a matcher may choose among the longest matches", "why_tests_cant": "The mistake shows for one key in about 64, and only for certain bytes; matching must be right for every process name and time in the header", "anchors": ["contrib/extract-handshakes/extract-handshakes.sh", "contrib/extract-handshakes/offset-finder.c"]}
{"id": "C97", "title": "Completion offers what wg takes", "statement": "Whatever complete arguments of wg set precede the cursor, and whether bash breaks words at = and : or not, the bash completion offers exactly the options that are not given yet for the interface (as long as no peer is named) or for the last peer; after the word peer it offers the keys of the interface's peers, and file names for private-key. wg set takes every word offered if a proper value follows, and every word it takes there is offered, unless it was given already or the peer is being removed. The first argument is completed with exactly the subcommands and help, the second with the interfaces, the third of wg show with exactly the words wg show takes.", "quantifier": "all command lines, settings of COMP_WORDBREAKS that leave letters, digits and -/+_. alone, all interfaces and peers", "why_tests_cant": "The completion and the program are two parsers that must agree on every command line; the split of keys and addresses into words shifts every index", "anchors": ["src/completion/wg.bash-completion", "src/config.c", "src/show.c", "src/wg.c"]}
{"id": "C98", "title": "The session keys of an interface", "statement": "For every memory of the kernel in which the interface has a ring of peers, and every table of sockets, contrib/extract-keys shows for the current, previous and next session of every peer, in order, the key for received packets with the local index and the key for sent packets with the remote index, in base64 and eight hexadecimal digits, and nothing else; the status says if there was no session, no such interface, or no access.", "quantifier": "all memories, both byte orders, all layouts of the structures of the kernel, all tables of sockets, any number of peers", "why_tests_cant": "It follows pointers through memory: tests see a few kernels only, and the fields are found by scanning lines backwards", "anchors": ["contrib/extract-keys/extract-keys.c", "contrib/extract-keys/config.c"]}
{"id": "C99", "title": "Reloading the systemd unit", "statement": "A reload of wg-quick@inst that succeeds makes the interface inst what the lines of /etc/wireguard/inst.conf that are not wg-quick's own say: its peers are exactly those of the file, peers that stay are not disturbed, and a file whose lines for wg are wrong changes nothing; endpoints are resolved with unlimited retries.", "quantifier": "all contents of the file, all states of the interface, all systems and ways of reaching the interface", "why_tests_cant": "It is the composition of two programs through a pipe whose writer's status nobody looks at: a test of either program alone sees nothing", "anchors": ["src/systemd/wg-quick@.service", "src/wg-quick/linux.bash:parse_options", "src/setconf.c:setconf_main,sync_conf"]}
{"id": "C100", "title": "Completion for wg-quick", "statement": "For every content of the directories and every text typed, after `wg-quick up` the names of the configurations in the directories the script of that system looks into are offered, with the .conf files and the directories that begin with the text; an offered name of an interface has the file wg-quick reads, and no such file whose name does not begin with a dot is left out; after `wg-quick down` the interfaces there are.", "quantifier": "all contents of the directories, all texts typed, all systems", "why_tests_cant": "The names come from directories and from the output of another program and are expanded by the shell: tests see a few names", "anchors": ["src/completion/wg-quick.bash-completion:_wg_quick_completion"]}
{"id": "C101", "title": "DNS without resolvconf", "statement": "With contrib/dns-hatchet, wg-quick up makes the configured servers, and no others, those programs find in /etc/resolv.conf (or in openresolv, if that is installed); if it cannot, nothing is changed and the cleanup does not undo what was not done; any number of interfaces taken down in the opposite order of bringing them up leaves what was there before.", "quantifier": "all configurations, all behaviours of the commands, any number of interfaces", "why_tests_cant": "Mounts are stacked: what down does depends on everything that was mounted before and after, and on what else changed meanwhile", "anchors": ["contrib/dns-hatchet/hatchet.bash:set_dns,unset_dns", "src/wg-quick/linux.bash:del_if,cmd_down"]}
{"id": "C102", "title": "Answers from where one was asked", "statement": "A program that uses contrib/sticky-sockets answers every datagram to its sender, from the address it was sent to and through the interface it arrived at; when the kernel does not accept that source any more, the same datagram is sent exactly once more with the source left to the kernel, and the source stays forgotten until the next datagram; other errors are reported and change nothing.", "quantifier": "all histories of operations on an endpoint, all datagrams and all answers of the kernel, IPv4 and IPv6; all contents of uninitialised memory", "why_tests_cant": "What is sent depends on everything that was received, set and refused before", "anchors": ["contrib/sticky-sockets/sticky-sockets.c:magic_send4,magic_send6,magic_receive4,magic_receive6,magic_endpoint_set,magic_endpoint_clearsrc,main"]}
{"id": "C103", "title": "The demo client", "statement": "Whatever an unauthenticated server answers, the file client-quick.sh writes gives wg-quick one Address, four fixed nameservers and no command, and wg the private key and one peer, with an endpoint at demo.wireguard.com and all of IPv4; only the output of `wg pubkey` is sent; status 0 is exactly a written file, and that takes a whole line that is OK up to its first colon; with the demo server the file has the reserved address and the key of the server.", "quantifier": "all answers of a server, keys, and results of the commands; all states of the demo server", "why_tests_cant": "The answer is text from an unauthenticated server that becomes a configuration", "anchors": ["contrib/ncat-client-server/client-quick.sh"]}
{"id": "C104", "title": "The demo client that sets up the interface itself", "statement": "Without a whole line of answer that is OK up to its first colon, client.sh runs no command as root; with one it runs a fixed list of commands in order up to the first failure that matters, each text of the server staying one word; whatever the texts are, wg is told nothing but the private key and one peer with an endpoint at demo.wireguard.com and all of IPv4; with the demo server it is the reserved address and the key of the server.", "quantifier": "all answers of a server, keys, and results of the commands; all states of the demo server", "why_tests_cant": "Text from an unauthenticated server becomes arguments of commands run as root", "anchors": ["contrib/ncat-client-server/client.sh"]}
