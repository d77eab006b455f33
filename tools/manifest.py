"""Generate MANIFEST.json from the theorem names (Cnn_...) of the Lean modules and the notes below."""
import json, os, re

ROOT = os.path.join(os.path.dirname(os.path.abspath(__file__)), "..")
thms = {}
for d, _, fs in os.walk(os.path.join(ROOT, "lean", "Verif")):
    for f in sorted(fs):
        if not f.endswith(".lean"):
            continue
        ns = []
        for line in open(os.path.join(d, f)):
            m = re.match(r"namespace (\S+)", line)
            if m:
                ns.append(m.group(1))
            m = re.match(r"end (\S+)", line)
            if m and ns and ns[-1] == m.group(1):
                ns.pop()
            m = re.match(r"(?:protected )?theorem ((C\d\d+)_\w+)", line)
            if m:
                thms.setdefault(m.group(2), []).append(".".join(ns + [m.group(1)]))

NOTES = {}
exec(open(os.path.join(ROOT, "tools", "notes.py")).read())
claims = []
for line in open(os.path.join(ROOT, "properties.jsonl")):
    pid = json.loads(line)["id"]
    status, note = NOTES.get(pid, ("proved", ""))
    names = sorted(thms.get(pid, []))
    if not names and status != "not_applicable":
        status, note = "partial", "not modelled yet"
    claims.append({"property": pid, "status": status, "theorems": names, "note": note})
json.dump({"claims": claims}, open(os.path.join(ROOT, "MANIFEST.json"), "w"), indent=1, ensure_ascii=False)
print({s: sum(c["status"] == s for c in claims) for s in ("proved", "partial", "not_applicable")},
      "without theorem:", [c["property"] for c in claims if not c["theorems"]])
