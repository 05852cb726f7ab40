#!/usr/bin/env python3
"""Collect the property theorems (named Cnn_...) into MANIFEST.json.

Status and notes come from tools/status.json."""
import json, re, glob, os
root = os.path.dirname(os.path.dirname(os.path.abspath(__file__)))
thms = {}
for f in sorted(glob.glob(root + '/lean/Verif/**/*.lean', recursive=True)):
    ns = []
    for line in open(f):
        m = re.match(r'namespace (\S+)', line)
        if m:
            ns.append(m.group(1))
        m = re.match(r'end (\S+)', line)
        if m and ns and ns[-1] == m.group(1):
            ns.pop()
        m = re.match(r'(?:private |protected )?theorem (C\d\d+)_(\S+)', line)
        if m:
            thms.setdefault(m.group(1), []).append('.'.join(ns + [m.group(1) + '_' + m.group(2)]))
status = json.load(open(root + '/tools/status.json'))
claims = []
for l in open(root + '/properties.jsonl'):
    pid = json.loads(l)['id']
    st = status.get(pid)
    if pid in thms and st:
        claims.append({'property': pid, 'status': st[0], 'theorems': thms[pid], 'note': st[1]})
    elif pid in thms or st:
        print('inconsistent', pid, thms.get(pid), st)
    else:
        print('todo', pid)
json.dump({'claims': claims}, open(root + '/MANIFEST.json', 'w'), indent=1)
