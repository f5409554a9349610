#!/usr/bin/env python3
"""Mutation test of the theorems.

usage: mutate.py mutations.json ...

Every entry of a file is {"file", "def", "old", "new", "claim"}: in a scratch copy of the Lake project (/tmp/mut), the first
occurrence of `old` after the definition `def` is replaced by `new`; then the project is built, the theorems with errors
are collected, and one line is added to seeded/LOG.jsonl.  Entries that are in the log already are skipped.
"""
import json, pathlib, re, shutil, subprocess, sys
root = pathlib.Path(__file__).resolve().parent.parent
scratch = pathlib.Path("/tmp/mut")
base = pathlib.Path("/tmp/mutbase")
log = root / "seeded" / "LOG.jsonl"

def decls(text):
    """(line number, name) of the declarations of a file"""
    out = []
    for i, line in enumerate(text.split("\n"), 1):
        m = re.match(r"(?:@\[[^\]]*\]\s*)?(?:private\s+|protected\s+|noncomputable\s+)?(theorem|def|instance|example|abbrev|structure|inductive)\b\s*(\S*)", line)
        if m:
            out.append((i, m.group(2) if m.group(1) not in ("example", "instance") else m.group(1)))
    return out

def run(m):
    shutil.rmtree(scratch, ignore_errors=True)
    shutil.copytree(base, scratch, symlinks=True)
    f = scratch / m["file"]
    text = f.read_text()
    k = re.search(r"^(?:@\[[^\]]*\]\s*)?(?:def|theorem|abbrev) " + re.escape(m["def"]) + r"(?=[\s:{(\[])", text, re.M)
    assert k, ("no such definition", m)
    p = text.find(m["old"], k.start())
    assert p >= 0, ("text not found", m)
    text2 = text[:p] + m["new"] + text[p + len(m["old"]):]
    f.write_text(text2)
    r = subprocess.run(["lake", "build"], cwd=scratch, capture_output=True, text=True)
    failed, modules, blocked = [], [], []
    cache = {}
    for x in re.finditer(r"^error: (Verif/\S+\.lean):(\d+):\d+", r.stdout + r.stderr, re.M):
        path, line = x.group(1), int(x.group(2))
        if path not in cache:
            cache[path] = decls((scratch / path).read_text())
        name = "?"
        for i, n in cache[path]:
            if i <= line: name = n
        entry = f"{path[6:-5].replace('/', '.')}: {name}"
        if entry not in failed: failed.append(entry)
    # property files that do not build any more
    for x in re.finditer(r"^- (Verif\.\S+)", r.stdout + r.stderr, re.M):
        modules.append(x.group(1))
    for p in sorted((scratch / "Verif" / "Props").glob("*.lean")):
        ol = scratch / ".lake/build/lib/lean/Verif/Props" / (p.stem + ".olean")
        q = subprocess.run(["lake", "build", "--no-build", f"Verif.Props.{p.stem}"], cwd=scratch, capture_output=True, text=True)
        if q.returncode != 0: blocked.append(p.stem)
    return r.returncode, failed, blocked

def main():
    # snapshot, so that work can go on in the project meanwhile
    shutil.rmtree(base, ignore_errors=True)
    shutil.copytree(root / "lean", base, symlinks=True)
    done = set()
    if log.exists():
        for l in open(log):
            if l.strip():
                d = json.loads(l)
                done.add((d["file"], d["definition"], d["edit"]))
    for arg in sys.argv[1:]:
        for m in json.load(open(arg)):
            edit = f"{m['old']}  ==>  {m['new']}"
            if ("lean/" + m["file"], m["def"], edit) in done: continue
            rc, failed, blocked = run(m)
            rec = {"definition": m["def"], "file": "lean/" + m["file"], "edit": edit, "breaks": m["claim"],
                   "failed": failed, "property_files_rejected": blocked, "killed": rc != 0, "tightened": m.get("tightened", [])}
            if m.get("note"): rec["note"] = m["note"]
            if rc == 0:
                print("SURVIVED", m["def"], edit, flush=True)
                rec["note"] = m.get("note", "survived")
            else:
                print("killed", m["def"], "|", edit.replace("\n", " ")[:100], "|", failed[:4], blocked, flush=True)
            with open(log, "a") as o: o.write(json.dumps(rec, ensure_ascii=False) + "\n")
main()
