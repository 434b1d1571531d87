#!/usr/bin/env python3
"""Regenerate lean/Verif.lean (imports of every module) and MANIFEST.json (theorems Cnn_* per property).

Theorem names are collected from lean/Verif/Props/*.lean; the notes are kept in testing/notes.json."""
import json, os, re
root = os.path.dirname(os.path.dirname(os.path.abspath(__file__)))
mods = []
for d, _, fs in os.walk(f"{root}/lean/Verif"):
    for f in fs:
        if f.endswith(".lean"):
            mods.append(os.path.relpath(f"{d}/{f}", f"{root}/lean")[:-5].replace("/", "."))
order = ["Basic", "IEEE", "Model", "Spec", "Proofs", "Props"]
mods.sort(key=lambda m: (order.index(m.split(".")[1]), m))
open(f"{root}/lean/Verif.lean", "w").write("".join(f"import {m}\n" for m in mods))
thms = {}
docs = {}
for m in mods:
    if ".Props." not in m: continue
    text = open(f"{root}/lean/" + m.replace(".", "/") + ".lean").read()
    # the doc comment of a theorem, up to the first full stop, says in the manifest what it is about
    for g in re.finditer(r"/-- ((?:(?!-/).)*?)\s*-/\n(?:set_option [^\n]*\n)?theorem (C\d\d+_\w+)", text, re.S):
        d = re.sub(r"^C\d+(?: for|:|,)? *", "", " ".join(g[1].split()))
        docs[g[2]] = re.split(r"(?<=[a-z)`]{2})\. |: here", d)[0].rstrip(". ")
    ns = []
    for line in text.split("\n"):
        if g := re.match(r"namespace (\S+)", line): ns.append(g[1])
        elif ns and line == "end " + ns[-1]: ns.pop()
        elif t := re.match(r"theorem (C(\d\d+)_\w+)", line):
            thms.setdefault("C" + t[2], []).append(".".join(ns + [t[1]]))
notes = json.load(open(f"{root}/testing/notes.json"))
claims = []
for line in open(f"{root}/properties.jsonl"):
    pid = json.loads(line)["id"]
    n = notes.get(pid, {})
    ts = thms.get(pid, [])
    if ts:
        st = n.get("status") or ("partial" if any(t.endswith("_partial") for t in ts) else "proved")
        claims.append({"property": pid, "status": st, "theorems": ts, "note": n.get("note") or "; ".join(f"{b}: {docs[b]}" for b in (x.split(".")[-1] for x in ts) if b in docs)})
    else:
        claims.append({"property": pid, "status": "partial", "theorems": [], "note": n.get("note", "not proved yet")})
        print("no theorem for", pid)
json.dump({"claims": claims}, open(f"{root}/MANIFEST.json", "w"), indent=1, ensure_ascii=False)
