#!/usr/bin/env python3
"""Generates lean/Verif/Model/Sha2Consts.lean from the tables in /repo/src/sha2.rs."""
import re
src = open('/repo/src/sha2.rs').read()
def tab(name):
    m = re.search(r'const %s: \[u\d+; \d+\] = \[(.*?)\];' % name, src, re.S)
    return [x.strip().replace('_','') for x in m.group(1).split(',') if x.strip()]
def iv(name):
    m = re.search(r'const %s: Algorithm.*?initial_state: \[(.*?)\]' % name, src, re.S)
    return [x.strip().replace('_','') for x in m.group(1).split(',') if x.strip()]
out = ["import Verif.Basic", "", "/-! Generated by tools/gen_sha_consts.py from /repo/src/sha2.rs. -/", "",
       "namespace CryptoPure.Model.Sha2", ""]
def emit(name, ty, xs, doc):
    out.append(f"/-- {doc} -/")
    out.append(f"def {name} : {ty} :=")
    out.append("  [" + ",\n   ".join(", ".join(xs[i:i+4]) for i in range(0, len(xs), 4)) + "]")
    out.append("")
emit("K512", "List (BitVec 64)", tab("K512"), "`K512`, src/sha2.rs:207-288")
emit("K256", "List (BitVec 32)", tab("K256"), "`K256`, src/sha2.rs:290-355")
def emito(name, w, xs, doc):
    out.append(f"/-- {doc} -/")
    out.append(f"def {name} : Oct {w} :=")
    out.append("  ⟨" + ",\n   ".join(", ".join(xs[i:i+4]) for i in range(0, len(xs), 4)) + "⟩")
    out.append("")
emito("iv512", 64, iv("SHA512"), "`SHA512.initial_state`, src/sha2.rs:150-159")
emito("iv384", 64, iv("SHA384"), "`SHA384.initial_state`, src/sha2.rs:165-174")
emito("iv256", 32, iv("SHA256"), "`SHA256.initial_state`, src/sha2.rs:180-189")
emito("iv224", 32, iv("SHA224"), "`SHA224.initial_state`, src/sha2.rs:195-204")
out.append("end CryptoPure.Model.Sha2")
open('/verif/lean/Verif/Model/Sha2Consts.lean','w').write("\n".join(out)+"\n")
