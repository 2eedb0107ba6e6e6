"""Turn the results of mutation runs (/tmp/mut/*.results.jsonl) into seeded/LOG.jsonl. Each run edits one definition of the
model in a scratch copy, rebuilds, and records the theorems whose proofs no longer check. `lake` does not build modules
that import a failed one, so the property theorems that depend on a failed lemma are looked up in /tmp/deps.json
(tools/deps.lean.txt)."""
import json, glob, os, sys
base = os.path.join(os.path.dirname(__file__), "..", "seeded")
deps = json.load(open("/tmp/deps.json"))
users = {}
for d in deps:
    for n in d["deps"]:
        module, name = n.split("|", 1)
        parts = name.split(".")
        for k in range(len(parts)):   # a failed theorem is recorded as file.name, the name relative to some namespace
            users.setdefault((module.split(".")[-1], ".".join(parts[k:])), set()).add(d["property"] + " " + d["theorem"])
notes = {}
np = os.path.join(base, "notes.json")   # key "file/definition/new" -> {"note":..., "tightened":[...]}
if os.path.exists(np): notes = json.load(open(np))
out = []
for f in sorted(glob.glob("/tmp/mut/muts*.results.jsonl")) + ["/tmp/mut/auto.results.jsonl"]:
    for l in open(f):
        r = json.loads(l)
        auto = "claim" not in r
        if auto and r["invalid"]: continue   # the edited model is not a program
        key = "%s/%s/%s" % (r["file"], r["definition"], r["new"])
        n = notes.get(key, {})
        failed = []
        for t in r["failed"] + n.get("failed", []):
            failed.append(t)
        aff = set()
        for t in failed:
            if "." in t: aff |= users.get(tuple(t.split(".", 1)), set())
        if auto:
            cl = sorted({a.split(" ")[0] for a in aff})
            r["claim"] = "random edit of one token; claims that rest on the edited definition: " + (", ".join(cl) or "see note")
        e = {"definition": r["file"] + "." + r["definition"], "edit": {"old": r["old"], "new": r["new"]},
             "claim": n.get("claim", notes.get("claims", {}).get(r["claim"], r["claim"])), "still_builds": r["ok"], "theorems_failed": failed,
             "property_theorems_affected": sorted(aff),
             "theorems_tightened": n.get("tightened", [])}
        if "note" in n: e["note"] = n["note"]
        out.append(e)
with open(os.path.join(base, "LOG.jsonl"), "w") as g:
    for e in out: g.write(json.dumps(e, ensure_ascii=False) + "\n")
print(len(out), sum(e["still_builds"] for e in out), sum((not e["property_theorems_affected"]) and not e["still_builds"] for e in out))
for e in out:
    if e["claim"].startswith("random"): continue
    cls = e["claim"].split(":")[0].split("/")
    if not e["still_builds"] and not any(x.startswith(cl.strip()[:3]) for cl in cls for x in e["property_theorems_affected"]):
        print(e["definition"], "|", e["claim"], "|", e["theorems_failed"][:4], "|", e["property_theorems_affected"][:5])
