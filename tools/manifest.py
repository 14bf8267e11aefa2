#!/usr/bin/env python3
"""Regenerates MANIFEST.json and lean/Verif.lean from the sources.

Theorem names are collected from lean/Verif/Props (names starting with Cnn_);
status and note per property come from tools/notes.json.
"""
import json, os, re, sys
root = os.path.dirname(os.path.dirname(os.path.abspath(__file__)))
props = [json.loads(l)["id"] for l in open(os.path.join(root, "properties.jsonl")) if l.strip()]
notes = json.load(open(os.path.join(root, "tools", "notes.json")))
found = {}
base = os.path.join(root, "lean", "Verif")
mods = []
for d, _, fs in os.walk(base):
    for f in fs:
        if f.endswith(".lean"):
            mods.append(os.path.relpath(os.path.join(d, f), os.path.join(root, "lean"))[:-5].replace("/", "."))
mods.sort()
open(os.path.join(root, "lean", "Verif.lean"), "w").write("".join(f"import {m}\n" for m in mods))
for m in mods:
    if ".Props." not in m:
        continue
    ns = []
    for line in open(os.path.join(root, "lean", m.replace(".", "/") + ".lean")):
        a = re.match(r"namespace (\S+)", line)
        if a:
            ns.append(a.group(1))
        a = re.match(r"end (\S+)", line)
        if a and ns and ns[-1] == a.group(1):
            ns.pop()
        a = re.match(r"theorem (C\d\d\d?)_(\S+)", line)
        if a:
            found.setdefault(a.group(1), []).append(".".join(ns + [a.group(1) + "_" + a.group(2)]))
claims = []
for p in props:
    n = notes.get(p, {})
    th = found.get(p, [])
    st = n.get("status", "partial" if th else "not_applicable")
    if st != "not_applicable" and not th:
        print("no theorem for", p); continue
    if not th and p not in notes:
        print("missing", p); continue
    if st == "proved" and any(t.endswith("_violated") for t in th):
        print("warning: proved but violated:", p)
    claims.append({"property": p, "status": st, "theorems": th, "note": n.get("note", "")})
for p in found:
    if p not in props:
        print("theorem for unknown property", p)
json.dump({"claims": claims}, open(os.path.join(root, "MANIFEST.json"), "w"), indent=1, ensure_ascii=False)
print({s: sum(c["status"] == s for c in claims) for s in ("proved", "partial", "not_applicable")}, "theorems", sum(len(c["theorems"]) for c in claims))
