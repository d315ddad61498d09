#!/usr/bin/env python3
"""addprop.py entry.json: append a property to properties.jsonl, a row to the plan table of DESIGN.md, and an import to
Verif.lean. entry: {prop: {...}, row: ["what is modelled", "how proved"], imports: [...]}."""
import json, sys
e = json.load(open(sys.argv[1]))
for e in (e if isinstance(e, list) else [e]):
    open('/verif/properties.jsonl', 'a').write(json.dumps(e["prop"]) + "\n")
    p = '/verif/DESIGN.md'
    lines = open(p).read().split("\n")
    last = max(i for i, l in enumerate(lines) if l.startswith("| C"))
    lines.insert(last + 1, "| %s | %s | %s |" % (e["prop"]["id"], e["row"][0], e["row"][1]))
    open(p, 'w').write("\n".join(lines))
    p = '/verif/lean/Verif.lean'
    s = open(p).read()
    for i in e["imports"]:
        if "import %s\n" % i not in s:
            s += "import %s\n" % i
    open(p, 'w').write(s)
