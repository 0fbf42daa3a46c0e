[
 {
  "definition": "isHexadecimal",
  "file": "Verif/Model/Highlight.lean",
  "old": "(97 ≤ or32 sc c ∧ or32 sc c ≤ 102)",
  "new": "(97 ≤ or32 sc c ∧ or32 sc c ≤ 103)",
  "claim": "C73: addresses are what inet_pton takes"
 },
 {
  "definition": "isValidKey",
  "file": "Verif/Model/Highlight.lean",
  "old": "b!\"AEIMQUYcgkosw480\"",
  "new": "b!\"AEIMQUYcgkosw48\"",
  "claim": "C73: keys are the base64 of 32 bytes"
 },
 {
  "definition": "isValidHostname",
  "file": "Verif/Model/Highlight.lean",
  "old": "if s.s.length > 63 ∨",
  "new": "if s.s.length ≥ 63 ∨",
  "claim": "C73: names of at most 63 bytes"
 },
 {
  "definition": "isValidHostname",
  "file": "Verif/Model/Highlight.lean",
  "old": "| some (d, p) => d ≠ s.s.length - p",
  "new": "| some (d, p) => d ≠ s.s.length + p",
  "claim": "C73: digits and dots are no name"
 },
 {
  "definition": "v4Loop",
  "file": "Verif/Model/Highlight.lean",
  "old": "(o.1 > 1 ∧ t.getD 0 0 = c!\"0\") ∨ o.2 > 255",
  "new": "o.2 > 255",
  "claim": "C73: addresses are what inet_pton takes (leading zeros)"
 },
 {
  "definition": "v6Loop",
  "file": "Verif/Model/Highlight.lean",
  "old": "if c ≠ c!\".\" ∨ (i < 6 ∧ ¬ seen) then",
  "new": "if c ≠ c!\".\" then",
  "claim": "C73: dotted tails only where inet_pton takes them"
 },
 {
  "definition": "isValidIpv6",
  "file": "Verif/Model/Highlight.lean",
  "old": "else if s.s.getD (s.s.length - 1) 0 = c!\":\" ∧ s.s.getD (s.s.length - 2) 0 ≠ c!\":\" then .ok false\n",
  "new": "",
  "claim": "C73: no single colon at the end"
 },
 {
  "definition": "isValidMtu",
  "file": "Verif/Model/Highlight.lean",
  "old": "s false 576 65535",
  "new": "s false 575 65535",
  "claim": "C73: MTU at least 576"
 },
 {
  "definition": "isValidFwmark",
  "file": "Verif/Model/Highlight.lean",
  "old": "s true 0 4294967295",
  "new": "s true 0 4294967296",
  "claim": "C73: marks have 32 bits"
 },
 {
  "definition": "bracketLoop",
  "file": "Verif/Model/Highlight.lean",
  "old": "if seen then .ok false\n",
  "new": "if seen then bracketLoop sc next [] true t\n",
  "claim": "C73: one scope only"
 },
 {
  "definition": "isValidNetwork",
  "file": "Verif/Model/Highlight.lean",
  "old": "if ok then .ok (n ≤ 32)",
  "new": "if ok then .ok (n ≤ 33)",
  "claim": "C73: prefix length at most 32"
 },
 {
  "definition": "isValidNetwork",
  "file": "Verif/Model/Highlight.lean",
  "old": "cidr.length > 3 ∨ cidr.length = 0",
  "new": "cidr.length > 3",
  "claim": "C73: a slash needs a length"
 },
 {
  "definition": "fieldNames",
  "file": "Verif/Model/Highlight.lean",
  "old": "(b!\"PreDown\", .preDown)",
  "new": "(b!\"PreDown\", .invalid)",
  "claim": "C73: PreDown is a field"
 },
 {
  "definition": "sectionForField",
  "file": "Verif/Model/Highlight.lean",
  "old": "| .saveConfig => .interfaceSection\n  | .publicKey",
  "new": "| .saveConfig | .publicKey => .interfaceSection\n  |",
  "claim": "C73: PublicKey belongs to peers"
 },
 {
  "definition": "append",
  "file": "Verif/Model/Highlight.lean",
  "old": "cap := if a.cap ≠ 0 then a.cap * 2 else 64",
  "new": "cap := 64",
  "claim": "C72: (harmless with memory: only more reallocations)"
 },
 {
  "definition": "append",
  "file": "Verif/Model/Highlight.lean",
  "old": "if s.len = 0 then a\n",
  "new": "if s.len = 1 then a\n",
  "claim": "C72: every part is in a span"
 },
 {
  "definition": "multiLoop",
  "file": "Verif/Model/Highlight.lean",
  "old": "⟨i + 1, 0⟩ 0\n",
  "new": "⟨i + 1, 0⟩ last\n",
  "claim": "C72: spans are in order and disjoint"
 },
 {
  "definition": "multivalue",
  "file": "Verif/Model/Highlight.lean",
  "old": "if h.type = .delimiter then",
  "new": "if h.type = .ip then",
  "claim": "C73: a comma at the end is an error"
 },
 {
  "definition": "value",
  "file": "Verif/Model/Highlight.lean",
  "old": "let colon := s.len - 1 - port",
  "new": "let colon := s.len - port",
  "claim": "C72: spans are disjoint"
 },
 {
  "definition": "flush",
  "file": "Verif/Model/Highlight.lean",
  "old": "⟨st.cur.start, st.last⟩ (if sec = .invalid",
  "new": "⟨st.cur.start, st.cur.len⟩ (if sec = .invalid",
  "claim": "C73: blanks behind a header are not marked"
 },
 {
  "definition": "flush",
  "file": "Verif/Model/Highlight.lean",
  "old": "else .ok { st with arr := append m st.arr ⟨st.eq, 1⟩ .error }",
  "new": "else .ok st",
  "claim": "C72: everything but blanks is in a span"
 },
 {
  "definition": "step",
  "file": "Verif/Model/Highlight.lean",
  "old": "if sec = .invalid ∨ field = .invalid ∨ sec ≠ st.section_",
  "new": "if sec = .invalid ∨ field = .invalid",
  "claim": "C73: names must be in their section"
 },
 {
  "definition": "step",
  "file": "Verif/Model/Highlight.lean",
  "old": "{ st with last := 0, field := .invalid, cur := ⟨i, 1⟩, on := .comment }",
  "new": "{ st with last := 0, field := .invalid, cur := ⟨i, 0⟩, on := .comment }",
  "claim": "C72: every byte but blanks is in a span"
 },
 {
  "definition": "step",
  "file": "Verif/Model/Highlight.lean",
  "old": "c = 10 ∨ (st.on ≠ .comment ∧ c = c!\"#\")",
  "new": "c = 10 ∨ c = c!\"#\"",
  "claim": "C73: a comment is one part"
 },
 {
  "definition": "loop",
  "file": "Verif/Model/Highlight.lean",
  "old": "| [], _, st => flush m cfg st",
  "new": "| [], _, st => .ok st",
  "claim": "C72: the last line counts"
 },
 {
  "definition": "highlightConfig",
  "file": "Verif/Model/Highlight.lean",
  "old": "⟨0, 2 ^ 64 - 1⟩ .end_",
  "new": "⟨0, 0⟩ .end_",
  "claim": "C72: there is a mark of the end"
 },
 {
  "definition": "color",
  "file": "Verif/Model/Highlight.lean",
  "old": "| .error => b!\"\\x1b[31m\\x1b[4m\"",
  "new": "| .error => b!\"\\x1b[32m\"",
  "claim": "C72: errors have a colour of their own"
 },
 {
  "definition": "paint",
  "file": "Verif/Model/Highlight.lean",
  "old": "if h.type = .end_ then slice input last ((input.length : Int) - last)",
  "new": "if h.type = .end_ then slice input last 0",
  "claim": "C72: what follows is printed"
 }
]