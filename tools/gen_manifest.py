#!/usr/bin/env python3
"""Collects the property theorems (named C01_..., C02_...) from lean/Verif/Props into MANIFEST.json.

Status and notes come from tools/claims.json: {"C02": ["partial", "note"], ...}.
"""
import glob, json, os, re

root = os.path.dirname(os.path.dirname(os.path.abspath(__file__)))
claims = json.load(open(os.path.join(root, "tools", "claims.json")))
found = {}
for path in sorted(glob.glob(os.path.join(root, "lean/Verif/Props/*.lean"))):
    text = open(path).read()
    spaces = []
    for line in text.split("\n"):
        if m := re.match(r"(namespace|section)\b ?(\S*)", line):
            spaces.append(m.group(2) if m.group(1) == "namespace" else "")
        elif re.match(r"end\b", line):
            spaces.pop()
        elif m := re.match(r"theorem (C\d+)(_\w+)", line):
            if "_sample" in m.group(2):
                continue
            name = ".".join([s for s in spaces if s] + [m.group(1) + m.group(2)])
            found.setdefault(m.group(1), []).append(name)
out = []
for line in open(os.path.join(root, "properties.jsonl")):
    pid = json.loads(line)["id"]
    if pid in claims:
        status, note = claims[pid]
        out.append({"property": pid, "status": status, "theorems": found.get(pid, []), "note": note})
    elif pid in found:
        print("no claim text for", pid)
json.dump({"claims": out}, open(os.path.join(root, "MANIFEST.json"), "w"), indent=1)
print(len(out), "claims,", sum(len(c["theorems"]) for c in out), "theorems")
