#!/usr/bin/env python3
"""Apply one deliberate bug to a scratch copy of the model and report which theorems stop proving.

seed.py FILE OLD NEW DEFINITION CLAIM [TARGET-MODULE...]: in a scratch copy of ../lean, replace OLD (which must occur exactly once) by NEW
in FILE, rebuild the target modules and append one line to ../seeded/LOG.jsonl."""
import json, re, subprocess, sys, pathlib, shutil
root = pathlib.Path(__file__).resolve().parent.parent
scratch = pathlib.Path("/tmp/seed/lean")
def copy():
    # A build that runs meanwhile in ../lean may remove files under the copy: try again.
    for k in range(5):
        shutil.rmtree(scratch, ignore_errors=True)
        try:
            return shutil.copytree(root / "lean", scratch)
        except shutil.Error:
            if k == 4:
                raise
def run(f, old, new, definition, claim, targets, tightened=(), also=()):
    # `also`: files that restate the edited definition as an unfolding lemma; the edit is made there too.
    scratch.parent.mkdir(exist_ok=True)
    subprocess.run(["rsync", "-a", "--delete", str(root / "lean") + "/", str(scratch) + "/"], check=True) if shutil.which("rsync") else \
        copy()
    p = scratch / f
    s = p.read_text()
    n = s.count(old)
    if n != 1:
        print("OLD occurs", n, "times in", f, repr(old)); return None
    p.write_text(s.replace(old, new))
    for g in also:
        t = (scratch / g).read_text()
        if old not in t:
            print("OLD not in", g); return None
        (scratch / g).write_text(t.replace(old, new))
    # Examples evaluate the model on literals; they would fail too (or run away), so leave them out.
    for q in scratch.glob("Verif/Props/*.lean"):
        t = q.read_text()
        u = re.sub(r"(?:/--(?:(?!-/).)*-/\n)?^example\b.*?(?=\n\n)", "", t, flags=re.M | re.S)
        if u != t and any(q.stem in x for x in targets):
            q.write_text(u)
    r = subprocess.run(["lake", "build"] + list(targets), cwd=scratch, capture_output=True, text=True, timeout=3000)
    out = r.stdout + r.stderr
    failed = []
    for m in re.finditer(r"error: (Verif/[\w/]+\.lean):(\d+):\d+", out):
        lines = (scratch / m.group(1)).read_text().split("\n")
        k = min(int(m.group(2)), len(lines))
        name = None
        for i in range(k - 1, -1, -1):
            mm = re.match(r"(?:private |protected |noncomputable )*(?:theorem|lemma|def|instance|example)\s*([\w.'?!]*)", lines[i])
            if mm:
                name = mm.group(1) or "example"; break
        t = f"{m.group(1)[6:-5].replace('/', '.')}:{name}"
        if t not in failed:
            failed.append(t)
    cid = claim.split(":")[0]
    claims = sorted({m for t in targets for m in re.findall(r"^theorem (C\d+_[\w']+)", (scratch / (t.replace(".", "/") + ".lean")).read_text(), re.M)
                     if m.startswith(cid + "_")}) if failed else []
    rec = {"definition": definition, "edit": f"{f}: {old.strip()!r} -> {new.strip()!r}", "claim": claim,
           "theorems_failed": failed, "claims_no_longer_proved": claims, "tightened": list(tightened)}
    print(("CAUGHT " if failed else "SURVIVED ") + definition + " :: " + ", ".join(failed[:6]))
    if not failed:
        print(out[-800:])
    with open(root / "seeded" / "LOG.jsonl", "a") as h:
        h.write(json.dumps(rec) + "\n")
    return failed
if __name__ == "__main__":
    a = sys.argv[1:]
    run(a[0], a[1], a[2], a[3], a[4], a[5:])
