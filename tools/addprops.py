"""append properties, notes and methods: python3 addprops.py FILE (a python file defining P, N, M)"""
import json, sys
ns = {}
exec(open(sys.argv[1]).read(), ns)
root = "/verif"
f = root + "/properties.jsonl"
have = {json.loads(l)["id"] for l in open(f)}
with open(f, "a") as o:
    for p in ns["P"]:
        if p["id"] not in have:
            o.write(json.dumps(p) + "\n")
for name, key, rows in (("manifest", '"C75": ("proved"', ns["N"]), ("design", '"C75": (', ns["M"])):
    path = f"{root}/tools/{name}.py"
    t = open(path).read()
    e = t.index("\n", t.index(key)) + 1
    new = "".join(f" {json.dumps(k)}: ({json.dumps(a)}, {json.dumps(b)}),\n" for k, (a, b) in rows.items() if f'"{k}": (' not in t)
    open(path, "w").write(t[:e] + new + t[e:])
